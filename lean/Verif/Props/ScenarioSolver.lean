import Verif.Lemmas.ScenarioSolver
import Verif.Props.MulticlassSolver
import Verif.Lemmas.Divergence

/-!
# Properties C58, C59: the solver of `SBOptimalBinning`

`inp.cls s` are the pre-bin counts of scenario `s`, `solve inp.n ans` is the pair (status, solution mask) for the answer
`ans` of the external solver.
-/
namespace OptBinning
open Finset Spec

theorem scen_master {o : ScenOpts} {inp : MultiInput} {w : List ℝ} {ans : SolverAnswer}
    (hv : ans.Valid (acceptsScen o inp) (objectiveScen w inp)) (hs : Solved (solve inp.n ans)) :
    ∃ a, acceptsScen o inp a ∧ ∀ k < inp.n, diag a.x k = inp.sol ans k := solved_diag hv hs

/-! ## C58 -/

/-- C58: a solved problem returns a partition into consecutive groups which respects `min_n_bins`, `max_n_bins` and the
splits marked as fixed. -/
theorem C58_limits {o : ScenOpts} {inp : MultiInput} {w : List ℝ} {ans : SolverAnswer} (hw : inp.Rect)
    (hv : ans.Valid (acceptsScen o inp) (objectiveScen w inp)) (hs : Solved (solve inp.n ans)) :
    IsBinning inp.n (inp.sol ans) ∧
    (∀ lo, o.minBins = some lo → lo ≤ numBins inp.n (inp.sol ans)) ∧
    (∀ hi, o.maxBins = some hi → (numBins inp.n (inp.sol ans) : ℤ) ≤ hi) ∧
    (∀ f, o.fixed = some f → ∀ i, i + 1 < inp.n → f i = true → inp.sol ans i = true) := by
  obtain ⟨a, ha, hd⟩ := scen_master hv hs
  have h := admissible_congr hd (ha.admissible hw hw.some_class)
  exact ⟨h.binning, h.minBins, h.maxBins, h.fixed⟩

/-- C58: in every scenario the number of records of every bin lies between the limits of that scenario. -/
theorem C58_bin_size {o : ScenOpts} {inp : MultiInput} {w : List ℝ} {ans : SolverAnswer} (hw : inp.Rect)
    (hv : ans.Valid (acceptsScen o inp) (objectiveScen w inp)) (hs : Solved (solve inp.n ans))
    {i : ℕ} (hi : i < inp.classes) {s e : ℕ} (hb : IsBin inp.n (inp.sol ans) s e) :
    (∀ l, o.minSize = some l → l.getD i 0 ≤ binTotal (inp.cls i).ne s e + binTotal (inp.cls i).ev s e) ∧
    (∀ l, o.maxSize = some l → binTotal (inp.cls i).ne s e + binTotal (inp.cls i).ev s e ≤ l.getD i 0) := by
  obtain ⟨a, ha, hd⟩ := scen_master hv hs
  have h := admissible_congr hd (ha.admissible hw hi)
  exact ⟨fun l hl => h.minSize s e hb _ (by simp [ScenOpts.limits, hl]),
    fun l hl => h.maxSize s e hb _ (by simp [ScenOpts.limits, hl])⟩

/-- C58: the requested trend holds in every scenario for the event rates at precision 1e-6; "peak" and "valley" change
direction at the same place in all scenarios. -/
theorem C58_trend {o : ScenOpts} {inp : MultiInput} {w : List ℝ} {ans : SolverAnswer} (hw : inp.Rect)
    (ht : o.trend.scen) (hv : ans.Valid (acceptsScen o inp) (objectiveScen w inp)) (hs : Solved (solve inp.n ans)) :
    TrendInAll inp.classes inp.n (inp.sol ans)
      (fun i s e => ⌊eventRate (inp.cls i).ne (inp.cls i).ev s e * 1000000⌋) o.trend := by
  obtain ⟨a, ha, hd⟩ := scen_master hv hs
  exact trendInAll_congr hd (fun _ _ _ _ _ _ => rfl) (ha.trend hw ht)

/-- C58: in every scenario consecutive bins differ by more than `min_event_rate_diff - 2e-6`. -/
theorem C58_min_event_rate_diff {o : ScenOpts} {inp : MultiInput} {w : List ℝ} {ans : SolverAnswer} (hw : inp.Rect)
    (hv : ans.Valid (acceptsScen o inp) (objectiveScen w inp)) (hs : Solved (solve inp.n ans)) (hpos : 0 < inp.minDiff)
    {i : ℕ} (hi : i < inp.classes) {s e e' : ℕ} (hb : IsBin inp.n (inp.sol ans) s e)
    (hb' : IsBin inp.n (inp.sol ans) (e + 1) e') :
    inp.minDiff - 2 / 1000000 <
      |eventRate (inp.cls i).ne (inp.cls i).ev s e - eventRate (inp.cls i).ne (inp.cls i).ev (e + 1) e'| := by
  obtain ⟨a, ha, hd⟩ := scen_master hv hs
  have := separated_congr hd (ha.separated hw hi).2 s e (e + 1) e' hb hb' (by omega) (fun _ => rfl)
  unfold tooClose6 at this
  push Not at this
  exact floor_abs (this hpos)

/-- C58: with a proportion test `t`, no two consecutive bins (policy "consecutive") / no two bins (policy "all") fail the
test in any scenario. -/
theorem C58_max_pvalue {o : ScenOpts} {inp : MultiInput} {w : List ℝ} {ans : SolverAnswer} (hw : inp.Rect)
    (hv : ans.Valid (acceptsScen o inp) (objectiveScen w inp)) (hs : Solved (solve inp.n ans))
    {i : ℕ} (hi : i < inp.classes) {t : ℕ → ℕ → ℕ → ℕ → Bool} (ht : inp.test = some t)
    {s e s' e' : ℕ} (hb : IsBin inp.n (inp.sol ans) s e) (hb' : IsBin inp.n (inp.sol ans) s' e') (hlt : e < s')
    (hpol : inp.policy = .consecutive → s' = e + 1) :
    t (binTotal (inp.cls i).ev s e).toNat (binTotal (inp.cls i).ne s e).toNat (binTotal (inp.cls i).ev s' e').toNat
      (binTotal (inp.cls i).ne s' e').toNat = false := by
  obtain ⟨a, ha, hd⟩ := scen_master hv hs
  have : ¬ failsTest (inp.cls i) s e s' e' := separated_congr hd (ha.separated hw hi).1 s e s' e' hb hb' hlt hpol
  by_contra hcon
  exact this ⟨t, ht, by simpa using hcon⟩

/-! ## C59 -/

/-- C59: except for "concave" and "convex", the binnings the solver can return are exactly those which satisfy all
constraints in every scenario (scenario binning has no preprocessing cuts). -/
theorem C59_exact_partial {o : ScenOpts} {inp : MultiInput} (hw : inp.Rect) (hex : o.trend ≠ .concave ∧ o.trend ≠ .convex)
    (hsc : o.trend.scen) (sol : ℕ → Bool) :
    (∃ a, acceptsScen o inp a ∧ ∀ k < inp.n, (a.x k k != 0) = sol k) ↔
      TrendInAll inp.classes inp.n sol (fun i s e => ⌊eventRate (inp.cls i).ne (inp.cls i).ev s e * 1000000⌋) o.trend ∧
      ∀ i < inp.classes,
        Admissible (o.limits i) inp.n sol (inp.cls i).ne (inp.cls i).ev (rate6 (inp.cls i)) ∧
        Separated inp.policy inp.n sol (failsTest (inp.cls i)) ∧
        Separated .consecutive inp.n sol (tooClose6 (inp.cls i)) := by
  constructor
  · rintro ⟨a, ha, hd⟩
    refine ⟨trendInAll_congr hd (fun _ _ _ _ _ _ => rfl) (ha.trend hw hsc), fun i hi => ?_⟩
    obtain ⟨h1, h2⟩ := ha.separated hw hi
    exact ⟨admissible_congr hd (ha.admissible hw hi), separated_congr hd h1, separated_congr hd h2⟩
  · rintro ⟨h1, h2⟩
    obtain ⟨a, ha, hx⟩ := acceptsScen.complete hw (by
      cases hto : o.trend <;> simp_all [ExactTrend]) hsc h1 h2
    refine ⟨a, ha, fun k _ => ?_⟩
    rw [hx]
    exact congrFun (encode_diag sol) k

/-- Information value of scenario `i` for the bins of `sol`, every contribution scaled by 10^6 and truncated. -/
noncomputable def scenIV6 (inp : MultiInput) (i : ℕ) (sol : ℕ → Bool) : ℤ :=
  totalOverBins inp.n sol
    (fun s e => truncReal (binDivergence jeffrey inp.n (inp.cls i).ne (inp.cls i).ev s e * 1000000))

theorem scenIV6_sol {inp : MultiInput} {i : ℕ} {sol sol' : ℕ → Bool} (h : ∀ k < inp.n, sol k = sol' k) :
    scenIV6 inp i sol = scenIV6 inp i sol' := totalOverBins_sol h _

/-- C59: the objective is the sum over the scenarios of the integer weight times the information value. -/
theorem C59_objective {o : ScenOpts} {inp : MultiInput} {w : List ℝ} {a : Assign} (hw : inp.Rect)
    (h : acceptsScen o inp a) :
    objectiveScen w inp a = ∑ i ∈ range inp.classes, intWeight w i * scenIV6 inp i (fun k => a.x k k != 0) := by
  unfold objectiveScen
  refine sum_congr rfl fun i hi => ?_
  obtain ⟨hcw, hcn⟩ := hw.column (mem_range.1 hi)
  have hc : Core (inp.cls i).dataCP.n a.x := by
    change Core (inp.cls i).n a.x
    rw [hcn]; exact h.core
  rw [objective_eq hc]
  congr 1
  unfold scenIV6
  change totalOverBins (inp.cls i).n _ _ = _
  rw [hcn]
  refine totalOverBins_congr fun s e hb => ?_
  change (inp.cls i).ivCP e s = _
  unfold BinaryInput.ivCP scale
  rw [iv_eq _ hcw (by rw [hcn]; exact hb.2.1) hb.1, hcn]
  push_cast
  rfl

/-- C59: status OPTIMAL (trends other than "concave", "convex") means that no binning satisfying all constraints in every
scenario has a larger integer-weighted sum of information values. -/
theorem C59_optimal_partial {o : ScenOpts} {inp : MultiInput} {w : List ℝ} {ans : SolverAnswer} (hw : inp.Rect)
    (hex : o.trend ≠ .concave ∧ o.trend ≠ .convex) (hsc : o.trend.scen)
    (hv : ans.Valid (acceptsScen o inp) (objectiveScen w inp)) (hs : (solve inp.n ans).1 = "OPTIMAL") (sol : ℕ → Bool)
    (ht : TrendInAll inp.classes inp.n sol (fun i s e => ⌊eventRate (inp.cls i).ne (inp.cls i).ev s e * 1000000⌋) o.trend)
    (h : ∀ i < inp.classes, Admissible (o.limits i) inp.n sol (inp.cls i).ne (inp.cls i).ev (rate6 (inp.cls i)) ∧
        Separated inp.policy inp.n sol (failsTest (inp.cls i)) ∧
        Separated .consecutive inp.n sol (tooClose6 (inp.cls i))) :
    ∑ i ∈ range inp.classes, intWeight w i * scenIV6 inp i sol ≤
      ∑ i ∈ range inp.classes, intWeight w i * scenIV6 inp i (inp.sol ans) := by
  obtain ⟨a', ha', hd'⟩ := (C59_exact_partial hw hex hsc sol).2 ⟨ht, h⟩
  cases ans with
  | optimal a =>
    have := hv.2 a' ha'
    rw [C59_objective hw hv.1, C59_objective hw ha'] at this
    have e1 : ∀ i, scenIV6 inp i (fun k => a'.x k k != 0) = scenIV6 inp i sol := fun i => scenIV6_sol hd'
    have e2 : ∀ i, scenIV6 inp i (inp.sol (.optimal a)) = scenIV6 inp i (fun k => a.x k k != 0) :=
      fun i => scenIV6_sol (fun k hk => solOf_map a.x hk)
    simp only [e1] at this
    simp only [e2]
    exact this
  | feasible a => simp [solve] at hs
  | other s => exact absurd hs hv.1

/-! ### the integer weights -/

theorem weightScale_eq {w : List ℝ} {m : ℝ} (hm : w.min? = some m) (hpos : 0 < m) :
    weightScale w = if 1 ≤ m then m else 1 / m := by
  unfold weightScale
  rw [hm, Option.getD_some]
  split_ifs with h1
  · rw [abs_of_nonneg (Real.logb_nonneg (by norm_num) h1), Real.rpow_logb (by norm_num) (by norm_num) hpos]
  · have hneg : Real.logb 10 m ≤ 0 := by
      rw [Real.logb_nonpos_iff (by norm_num) hpos]
      linarith
    rw [abs_of_nonpos hneg, Real.rpow_neg (by norm_num), Real.rpow_logb (by norm_num) (by norm_num) hpos, one_div]

theorem min?_le_getD {w : List ℝ} {m : ℝ} (hm : w.min? = some m) {i : ℕ} (hi : i < w.length) : m ≤ w.getD i 0 := by
  obtain ⟨-, h⟩ := List.min?_eq_some_iff.1 hm
  have : w.getD i 0 = w[i] := by simp [List.getD, hi]
  rw [this]
  exact h _ (List.getElem_mem hi)

/-- C59: without `weights` every scenario has the integer weight 1, so that the objective is the plain sum. -/
theorem C59_default_weights {n i : ℕ} (hi : i < n) : intWeight (defaultWeights none n) i = 1 := by
  have hm : (List.replicate n (1 : ℝ)).min? = some 1 := by
    rw [List.min?_eq_some_iff]
    exact ⟨List.mem_replicate.2 ⟨by omega, rfl⟩, fun b hb => (List.mem_replicate.1 hb).2.ge⟩
  unfold defaultWeights intWeight
  rw [Option.getD_none, weightScale_eq hm (by norm_num)]
  simp [List.getD, hi, truncReal]

/-- C59: whole-number weights are kept in proportion: each integer weight is the given weight times the smallest one. -/
theorem C59_whole_weights {w : List ℕ} {m i : ℕ} (hm : w.min? = some m) (hpos : 0 < m) (hi : i < w.length) :
    intWeight (w.map fun k : ℕ => (k : ℝ)) i = (m : ℤ) * ((w.getD i 0 : ℕ) : ℤ) := by
  have hm' : (w.map fun k : ℕ => (k : ℝ)).min? = some (m : ℝ) := by
    obtain ⟨h1, h2⟩ := List.min?_eq_some_iff.1 hm
    rw [List.min?_eq_some_iff]
    refine ⟨List.mem_map.2 ⟨m, h1, rfl⟩, fun b hb => ?_⟩
    obtain ⟨k, hk, rfl⟩ := List.mem_map.1 hb
    exact_mod_cast h2 k hk
  unfold intWeight
  rw [weightScale_eq hm' (by exact_mod_cast hpos), if_pos (by exact_mod_cast hpos)]
  have e : (w.map fun k : ℕ => (k : ℝ)).getD i 0 * (m : ℝ) = (((m : ℤ) * ((w.getD i 0 : ℕ) : ℤ) : ℤ) : ℝ) := by
    simp [List.getD, hi, mul_comm]
  rw [e]
  unfold truncReal
  split_ifs
  · exact Int.floor_intCast _
  · exact Int.ceil_intCast _

/-- C59: for positive weights, no integer weight exceeds the scaled weight, and it is more than half of it. -/
theorem C59_weight_bounds {w : List ℝ} {m : ℝ} (hm : w.min? = some m) (hpos : 0 < m) {i : ℕ} (hi : i < w.length) :
    (intWeight w i : ℝ) ≤ w.getD i 0 * weightScale w ∧ w.getD i 0 * weightScale w < 2 * (intWeight w i : ℝ) ∧
      1 ≤ weightScale w := by
  have hle := min?_le_getD hm hi
  have hs := weightScale_eq hm hpos
  have h1 : 1 ≤ weightScale w := by
    rw [hs]
    split_ifs with h
    · exact h
    · rw [one_le_div hpos]; linarith
  have h2 : 1 ≤ w.getD i 0 * weightScale w := by
    rw [hs]
    split_ifs with h
    · nlinarith
    · rw [mul_one_div, one_le_div hpos]; exact hle
  have h3 : (1 : ℤ) ≤ ⌊w.getD i 0 * weightScale w⌋ := Int.le_floor.2 (by exact_mod_cast h2)
  have h4 := Int.lt_floor_add_one (w.getD i 0 * weightScale w)
  have h5 := Int.floor_le (w.getD i 0 * weightScale w)
  have e : intWeight w i = ⌊w.getD i 0 * weightScale w⌋ := by
    unfold intWeight truncReal
    rw [if_pos (by linarith)]
  rw [e]
  refine ⟨h5, ?_, h1⟩
  have h6 : (1 : ℝ) ≤ ((⌊w.getD i 0 * weightScale w⌋ : ℤ) : ℝ) := by exact_mod_cast h3
  linarith

theorem jeffrey_nonneg {x y : ℝ} (hx : 0 ≤ x) (hy : 0 ≤ y) : 0 ≤ jeffrey x y := by
  rcases hx.eq_or_lt with rfl | hx
  · rw [jeffrey, xlogy_eq]; simp
  rcases hy.eq_or_lt with rfl | hy
  · rw [jeffrey, xlogy_eq]; simp
  exact goodDiv_jeffrey.nonneg _ _ hx hy

theorem scenIV6_nonneg (inp : MultiInput) (i : ℕ) (sol : ℕ → Bool) : 0 ≤ scenIV6 inp i sol := by
  unfold scenIV6 totalOverBins
  refine sum_nonneg fun p _ => ?_
  have h1 : ∀ s e, 0 ≤ binTotal (inp.cls i).ne s e := fun s e => sum_nonneg fun k _ => by
    simp [BinaryInput.ne]
  have h2 : ∀ s e, 0 ≤ binTotal (inp.cls i).ev s e := fun s e => sum_nonneg fun k _ => by
    simp [BinaryInput.ev]
  have h3 : 0 ≤ binDivergence jeffrey inp.n (inp.cls i).ne (inp.cls i).ev p.1 p.2 := by
    unfold binDivergence
    exact jeffrey_nonneg (div_nonneg (by exact_mod_cast h2 _ _) (by exact_mod_cast h2 _ _))
      (div_nonneg (by exact_mod_cast h1 _ _) (by exact_mod_cast h1 _ _))
  have h4 : 0 ≤ binDivergence jeffrey inp.n (inp.cls i).ne (inp.cls i).ev p.1 p.2 * 1000000 := by positivity
  beta_reduce
  unfold truncReal
  rw [if_pos h4]
  exact Int.floor_nonneg.2 h4

/-- C59: for arbitrary positive weights the weighted sum of information values of an OPTIMAL answer is at least half of
the best possible one. -/
theorem C59_half_optimal {o : ScenOpts} {inp : MultiInput} {w : List ℝ} {ans : SolverAnswer} {m : ℝ} (hw : inp.Rect)
    (hm : w.min? = some m) (hpos : 0 < m) (hlen : w.length = inp.classes)
    (hex : o.trend ≠ .concave ∧ o.trend ≠ .convex) (hsc : o.trend.scen)
    (hv : ans.Valid (acceptsScen o inp) (objectiveScen w inp)) (hs : (solve inp.n ans).1 = "OPTIMAL") (sol : ℕ → Bool)
    (ht : TrendInAll inp.classes inp.n sol (fun i s e => ⌊eventRate (inp.cls i).ne (inp.cls i).ev s e * 1000000⌋) o.trend)
    (h : ∀ i < inp.classes, Admissible (o.limits i) inp.n sol (inp.cls i).ne (inp.cls i).ev (rate6 (inp.cls i)) ∧
        Separated inp.policy inp.n sol (failsTest (inp.cls i)) ∧
        Separated .consecutive inp.n sol (tooClose6 (inp.cls i))) :
    ∑ i ∈ range inp.classes, w.getD i 0 * (scenIV6 inp i sol : ℝ) ≤
      2 * ∑ i ∈ range inp.classes, w.getD i 0 * (scenIV6 inp i (inp.sol ans) : ℝ) := by
  have hopt := C59_optimal_partial hw hex hsc hv hs sol ht h
  have hopt' : (∑ i ∈ range inp.classes, (intWeight w i : ℝ) * (scenIV6 inp i sol : ℝ)) ≤
      ∑ i ∈ range inp.classes, (intWeight w i : ℝ) * (scenIV6 inp i (inp.sol ans) : ℝ) := by exact_mod_cast hopt
  have hb := fun i (hi : i < inp.classes) => C59_weight_bounds hm hpos (i := i) (by rw [hlen]; exact hi)
  have h0 : 1 ≤ weightScale w := (hb 0 hw.some_class).2.2
  have step1 : weightScale w * ∑ i ∈ range inp.classes, w.getD i 0 * (scenIV6 inp i sol : ℝ) ≤
      2 * ∑ i ∈ range inp.classes, (intWeight w i : ℝ) * (scenIV6 inp i sol : ℝ) := by
    rw [mul_sum, mul_sum]
    refine sum_le_sum fun i hi => ?_
    have hi' := mem_range.1 hi
    have hv : (0 : ℝ) ≤ (scenIV6 inp i sol : ℝ) := by exact_mod_cast scenIV6_nonneg inp i sol
    have := (hb i hi').2.1
    nlinarith
  have step2 : ∑ i ∈ range inp.classes, (intWeight w i : ℝ) * (scenIV6 inp i (inp.sol ans) : ℝ) ≤
      weightScale w * ∑ i ∈ range inp.classes, w.getD i 0 * (scenIV6 inp i (inp.sol ans) : ℝ) := by
    rw [mul_sum]
    refine sum_le_sum fun i hi => ?_
    have hi' := mem_range.1 hi
    have hv : (0 : ℝ) ≤ (scenIV6 inp i (inp.sol ans) : ℝ) := by exact_mod_cast scenIV6_nonneg inp i _
    have := (hb i hi').1
    nlinarith
  have hpos' : 0 < weightScale w := by linarith
  have := step1.trans ((mul_le_mul_of_nonneg_left hopt' (by norm_num : (0 : ℝ) ≤ 2)).trans
    (mul_le_mul_of_nonneg_left step2 (by norm_num : (0 : ℝ) ≤ 2)))
  nlinarith

/-- C59, finding: the weights 0.3 and 0.5 are both rounded to 1, so that the solver ignores the difference. -/
theorem C59_weights_rounded_away : intWeight [0.3, 0.5] 0 = 1 ∧ intWeight [0.3, 0.5] 1 = 1 := by
  have hm : ([0.3, 0.5] : List ℝ).min? = some 0.3 := by
    rw [List.min?_eq_some_iff]
    refine ⟨by simp, fun b hb => ?_⟩
    simp only [List.mem_cons, List.not_mem_nil, or_false] at hb
    rcases hb with rfl | rfl <;> norm_num
  have hs := weightScale_eq hm (by norm_num)
  rw [if_neg (by norm_num)] at hs
  unfold intWeight
  rw [hs]
  constructor
  · unfold truncReal
    norm_num
  · unfold truncReal
    rw [if_pos (by norm_num)]
    rw [Int.floor_eq_iff]
    norm_num

/-! ## Non-vacuity -/

/-- Two scenarios with three pre-bins of 10 records, with 2, 5, 3 and 1, 8, 8 events. -/
def exScen : MultiInput where
  n := 3
  event := [[2, 5, 3], [1, 8, 8]]
  nonevent := [[8, 5, 7], [9, 2, 2]]

/-- Trend "peak", two to three bins of at least 9 records in the first scenario and 10 in the second. -/
def exScenOpts : ScenOpts where
  trend := .peak
  minBins := some 2
  maxBins := some 3
  minSize := some [9, 10]

theorem exScen_rect : exScen.Rect := ⟨by decide, by decide, rfl, by decide, by decide⟩

theorem exScen_total {c k : ℕ} (hc : c < 2) (hk : k < 3) :
    binTotal (exScen.cls c).ne k k + binTotal (exScen.cls c).ev k k = 10 ∧
    eventRate (exScen.cls c).ne (exScen.cls c).ev k k = (((exScen.event.getD c []).getD k 0 : ℕ) : ℚ) / 10 := by
  unfold eventRate binTotal
  rw [Finset.Icc_self, Finset.sum_singleton, Finset.sum_singleton]
  change (((exScen.nonevent.getD c []).getD k 0 : ℕ) : ℤ) + (((exScen.event.getD c []).getD k 0 : ℕ) : ℤ) = 10 ∧
    ((((exScen.event.getD c []).getD k 0 : ℕ) : ℤ) : ℚ) /
    (((((exScen.nonevent.getD c []).getD k 0 : ℕ) : ℤ) : ℚ) + ((((exScen.event.getD c []).getD k 0 : ℕ) : ℤ) : ℚ)) = _
  have h1 : c = 0 ∨ c = 1 := by omega
  have h2 : k = 0 ∨ k = 1 ∨ k = 2 := by omega
  rcases h1 with rfl | rfl <;> rcases h2 with rfl | rfl | rfl <;> norm_num [exScen]

/-- Non-vacuity of C58, C59: a valid answer with three bins. -/
theorem exScen_answer (w : List ℝ) : ∃ ans : SolverAnswer,
    ans.Valid (acceptsScen exScenOpts exScen) (objectiveScen w exScen) ∧ Solved (solve exScen.n ans) ∧
      ∀ k < 3, exScen.sol ans k = true := by
  obtain ⟨a, ha, hd⟩ := (C59_exact_partial (o := exScenOpts) exScen_rect (by decide) (by simp [exScenOpts, Trend.scen])
    (fun _ => true)).2 (by
    constructor
    · refine ⟨2, fun i hi => ⟨?_, ?_⟩⟩
      · intro s e s' e' hb hb' hlt he he'
        obtain ⟨rfl, h3⟩ := exAll_bins.1 hb
        obtain ⟨rfl, h4⟩ := exAll_bins.1 hb'
        beta_reduce
        have hi' : i < 2 := hi
        rw [(exScen_total hi' h3).2, (exScen_total hi' h4).2]
        have : s = 0 ∧ s' = 1 := by omega
        obtain ⟨rfl, rfl⟩ := this
        refine Int.floor_le_floor ?_
        have h1 : i = 0 ∨ i = 1 := by omega
        rcases h1 with rfl | rfl <;> norm_num [exScen]
      · intro s e s' e' hb hb' hlt he he'
        obtain ⟨rfl, h3⟩ := exAll_bins.1 hb
        obtain ⟨rfl, h4⟩ := exAll_bins.1 hb'
        omega
    · intro i hi
      have hi' : i < 2 := hi
      have hnb : numBins 3 (fun _ => true) = 3 := by decide
      refine ⟨⟨⟨by decide, rfl⟩, ?_, ?_, ?_, ?_, ?_, ?_, ?_, ?_, trivial, ?_⟩, ?_, ?_⟩
      · intro b hb
        change some 2 = some b at hb
        change b ≤ ((numBins 3 (fun _ => true) : ℕ) : ℤ)
        rw [hnb]; cases hb; norm_num
      · intro b hb
        change some 3 = some b at hb
        change ((numBins 3 (fun _ => true) : ℕ) : ℤ) ≤ b
        rw [hnb]; cases hb; norm_num
      · intro s e hb' b hb
        obtain ⟨rfl, h3⟩ := exAll_bins.1 hb'
        rw [(exScen_total hi' h3).1]
        have h1 : i = 0 ∨ i = 1 := by omega
        change some (([9, 10] : List ℤ).getD i 0) = some b at hb
        rcases h1 with rfl | rfl <;> simp at hb <;> omega
      · intro s e _ b hb; cases hb
      · intro s e _ b hb; cases hb
      · intro s e _ b hb; cases hb
      · intro s e _ b hb; cases hb
      · intro s e _ b hb; cases hb
      · intro f hf; cases hf
      · rintro s e s' e' - - - - ⟨t, ht, -⟩
        cases ht
      · rintro s e s' e' - - - - ⟨h0, -⟩
        exact absurd h0 (by change ¬ ((0 : ℚ) < 0); norm_num))
  refine ⟨.feasible a, ha, Or.inr rfl, fun k hk => ?_⟩
  exact (solOf_map a.x hk).trans (hd k hk)

end OptBinning
