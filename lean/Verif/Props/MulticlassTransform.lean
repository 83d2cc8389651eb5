import Verif.Props.Multiclass
import Verif.Props.ContinuousTransform
import Verif.Props.MulticlassTable

/-!
# Properties C57: `transform` of `MulticlassOptimalBinning`
-/
set_option linter.unusedSectionVars false
set_option linter.unusedSimpArgs false
namespace OptBinning
open Spec Finset

variable {α κ : Type*} [LinearOrder α] [LinearOrder κ]

/-- The code computes the one-versus-rest WoE. -/
theorem rateToWoe_eq {a b A B : ℕ} (ha : 0 < a) (_hb : 0 < b) :
    rateToWoe ((a : ℝ) / ((a + b : ℕ) : ℝ)) B A = oneVsRest a b A B := by
  unfold rateToWoe oneVsRest
  congr 1
  have h1 : (a : ℝ) ≠ 0 := by positivity
  push_cast
  by_cases hB : (B : ℝ) = 0
  · rw [hB]; simp
  · by_cases hA : (A : ℝ) = 0
    · rw [hA]; simp
    · field_simp
      ring

section
variable {sc : SpecialCodes α} {prebin : List (RecM α κ) → List α} {solver : SolverM} {c : SolverCfgM}
    {recs : List (RecM α κ)} {f : FittedM α κ}

theorem rest_split {cs : List κ} {cl : κ} (hcl : cl ∈ cs) (q : RecM α κ → Prop) [DecidablePred q] :
    countRecs recs (fun r => (∃ k ∈ cs, r.y = some k) ∧ q r) =
      countRecs recs (fun r => r.y = some cl ∧ q r) + countRecs recs (fun r => (∃ k ∈ cs, r.y = some k ∧ k ≠ cl) ∧ q r) := by
  induction recs with
  | nil => simp [countRecs]
  | cons r recs ih =>
    simp only [countRecs_cons, ih]
    have : (if (∃ k ∈ cs, r.y = some k) ∧ q r then 1 else 0) = (if r.y = some cl ∧ q r then 1 else 0) +
        (if (∃ k ∈ cs, r.y = some k ∧ k ≠ cl) ∧ q r then 1 else 0) := by
      by_cases hq : q r
      · simp only [hq, and_true]
        by_cases hy : r.y = some cl
        · have h1 : ∃ k ∈ cs, r.y = some k := ⟨cl, hcl, hy⟩
          have h2 : ¬ ∃ k ∈ cs, r.y = some k ∧ k ≠ cl := by
            rintro ⟨k, -, hk, hne⟩
            rw [hy] at hk
            exact hne (Option.some.inj hk).symm
          rw [if_pos h1, if_pos hy, if_neg h2]
        · have : (∃ k ∈ cs, r.y = some k) ↔ ∃ k ∈ cs, r.y = some k ∧ k ≠ cl := by
            constructor
            · rintro ⟨k, h1, h2⟩
              exact ⟨k, h1, h2, fun e => hy (e ▸ h2)⟩
            · rintro ⟨k, h1, h2, -⟩
              exact ⟨k, h1, h2⟩
          simp [this, hy]
      · simp [hq]
    omega

/-- One-versus-rest WoE shown by the code for class number `i` in row `k`. -/
theorem woeM_eq (hp : ProperCodes sc) (hsort : ∀ l, (prebin l).Pairwise (· ≤ ·)) (hr : RespectsM c solver)
    (h : fitNumericalM sc none prebin solver recs = .ok f) {i : ℕ} {cl : κ} (hi : f.classes[i]? = some cl) {k : ℕ}
    (hk : k < f.splits.length + 1 + sc.count + 1) :
    woeM f.event k i = classWoe recs f.classes (fun x => rowOf f sc x k) cl := by
  have hmem : cl ∈ f.classes := List.mem_of_getElem? hi
  have hrest : ∀ j < f.splits.length + 1 + sc.count + 1, restM f.event j i =
      countRecs recs fun r => (∃ k ∈ f.classes, r.y = some k ∧ k ≠ cl) ∧ rowOf f sc r.x j := by
    intro j hj
    unfold restM
    rw [C56_count hp hsort hr h hj, cellM_eq hp hsort hr h hi hj, rest_split hmem]
    omega
  have htot : totalRest f.event i = countRecs recs fun r => ∃ k ∈ f.classes, r.y = some k ∧ k ≠ cl := by
    unfold totalRest
    rw [rowsM_eq hp hsort hr h (List.ne_nil_of_mem hmem), ← sum_rows hp f recs]
    congr 1
    exact List.map_congr_left fun j hj => hrest j (List.mem_range.1 hj)
  have ha := cellM_eq hp hsort hr h hi hk
  have hb := hrest k hk
  unfold woeM classWoe
  simp only
  rw [← ha, ← hb, ← htot, ← (C56_totals hp hsort hr h).1 i cl hi]
  by_cases h0 : 0 < cellM f.event k i ∧ 0 < restM f.event k i
  · rw [if_pos h0, if_neg (by omega), ← rateToWoe_eq h0.1 h0.2]
    congr 2
    unfold restM at h0 ⊢
    congr 1
    omega
  · rw [if_neg h0, if_pos (by omega)]

/-- Summing over the classes. -/
theorem sum_classes (g : ℕ → ℝ) (v : κ → ℝ) (cs : List κ) (hg : ∀ i cl, cs[i]? = some cl → g i = v cl) :
    ((List.range cs.length).map g).sum = (cs.map v).sum := by
  congr 1
  refine List.ext_getElem (by simp) fun i h1 h2 => ?_
  simp only [List.getElem_map, List.getElem_range]
  exact hg i _ (List.getElem?_eq_getElem _)

/-- C57: `transform(metric="mean_woe")` with empirical special and missing metrics gives a value in row `k` the mean over
the classes of the one-versus-rest WoE of row `k`, computed from the training records. -/
theorem C57_mean_woe (hp : ProperCodes sc) (hsort : ∀ l, (prebin l).Pairwise (· ≤ ·)) (hr : RespectsM c solver)
    (h : fitNumericalM sc none prebin solver recs = .ok f) {x : Option α} {k : ℕ} (hk : rowOf f sc x k) :
    transformMeanWoe f sc .empirical .empirical [x] =
      [(f.classes.map (classWoe recs f.classes fun x => rowOf f sc x k)).sum / f.classes.length] := by
  obtain ⟨k', h1, h2, h3⟩ := transformOne_idxC hp f.splits x (meanWoeM f.event) 0
  have hkk : k' = k := by
    have := (rowOf_iff f sc x k).1 hk
    rw [h1] at this
    exact_mod_cast this
  subst hkk
  simp only [transformMeanWoe, MetricOpt.forWoe, List.map_cons, List.map_nil, h3]
  unfold meanWoeM
  rw [event_length hsort hr h, sum_classes _ _ _ fun i cl hi => woeM_eq hp hsort hr h hi h2]

/-- C57: `transform(metric="weighted_mean_woe")` gives the mean of the same values weighted by the number of training
records of each class. -/
theorem C57_weighted_mean_woe (hp : ProperCodes sc) (hsort : ∀ l, (prebin l).Pairwise (· ≤ ·)) (hr : RespectsM c solver)
    (h : fitNumericalM sc none prebin solver recs = .ok f) {x : Option α} {k : ℕ} (hk : rowOf f sc x k) :
    transformWeightedWoe f sc .empirical .empirical [x] =
      [(f.classes.map fun cl => (countRecs recs (fun r => r.y = some cl) : ℝ) *
          classWoe recs f.classes (fun x => rowOf f sc x k) cl).sum /
        (f.classes.map fun cl => (countRecs recs (fun r => r.y = some cl) : ℝ)).sum] := by
  obtain ⟨k', h1, h2, h3⟩ := transformOne_idxC hp f.splits x (weightedMeanWoeM f.event) 0
  have hkk : k' = k := by
    have := (rowOf_iff f sc x k).1 hk
    rw [h1] at this
    exact_mod_cast this
  subst hkk
  simp only [transformWeightedWoe, MetricOpt.forWoe, List.map_cons, List.map_nil, h3]
  unfold weightedMeanWoeM
  rw [event_length hsort hr h, sum_classes _ _ _ fun i cl hi => by
      rw [woeM_eq hp hsort hr h hi h2, (C56_totals hp hsort hr h).1 i cl hi],
    sum_classes _ _ _ fun i cl hi => by rw [(C56_totals hp hsort hr h).1 i cl hi]]

/-- A non-negatively weighted mean lies between bounds of the values. -/
theorem weighted_between {cs : List κ} (w v : κ → ℝ) (hw : ∀ cl ∈ cs, 0 ≤ w cl) (hpos : 0 < (cs.map w).sum) {lo hi : ℝ}
    (hlo : ∀ cl ∈ cs, lo ≤ v cl) (hhi : ∀ cl ∈ cs, v cl ≤ hi) :
    lo ≤ (cs.map fun cl => w cl * v cl).sum / (cs.map w).sum ∧ (cs.map fun cl => w cl * v cl).sum / (cs.map w).sum ≤ hi := by
  rw [le_div_iff₀ hpos, div_le_iff₀ hpos]
  have : ∀ l : List κ, (∀ cl ∈ l, cl ∈ cs) → lo * (l.map w).sum ≤ (l.map fun cl => w cl * v cl).sum ∧
      (l.map fun cl => w cl * v cl).sum ≤ hi * (l.map w).sum := by
    intro l
    induction l with
    | nil => simp
    | cons a l ih =>
      intro hl
      obtain ⟨i1, i2⟩ := ih fun cl h => hl cl (List.mem_cons_of_mem _ h)
      have ha := hl a List.mem_cons_self
      simp only [List.map_cons, List.sum_cons]
      have h1 := mul_le_mul_of_nonneg_left (hlo a ha) (hw a ha)
      have h2 := mul_le_mul_of_nonneg_left (hhi a ha) (hw a ha)
      constructor <;> nlinarith
  exact this cs fun _ h => h

/-- C57: both transformed values lie between the smallest and the largest one-versus-rest WoE of the classes. -/
theorem C57_between (hp : ProperCodes sc) (hsort : ∀ l, (prebin l).Pairwise (· ≤ ·)) (hr : RespectsM c solver)
    (h : fitNumericalM sc none prebin solver recs = .ok f) (hne : f.classes ≠ []) {x : Option α} {k : ℕ}
    (hk : rowOf f sc x k) {lo hi : ℝ}
    (hlo : ∀ cl ∈ f.classes, lo ≤ classWoe recs f.classes (fun x => rowOf f sc x k) cl)
    (hhi : ∀ cl ∈ f.classes, classWoe recs f.classes (fun x => rowOf f sc x k) cl ≤ hi) :
    (∀ v ∈ transformMeanWoe f sc .empirical .empirical [x], lo ≤ v ∧ v ≤ hi) ∧
    ∀ v ∈ transformWeightedWoe f sc .empirical .empirical [x], lo ≤ v ∧ v ≤ hi := by
  have hpos : 0 < f.classes.length := List.length_pos_iff.2 hne
  have hall : ∀ cl ∈ f.classes, 0 < countRecs recs fun r => r.y = some cl := by
    intro cl hcl
    obtain ⟨r, h1, -, h2⟩ := ((C56_classes hsort hr h).1.2 cl).1 hcl
    unfold countRecs
    rw [List.countP_pos_iff]
    exact ⟨r, h1, by simpa using h2⟩
  constructor
  · intro v hv
    rw [C57_mean_woe hp hsort hr h hk, List.mem_singleton] at hv
    have := weighted_between (cs := f.classes) (fun _ => 1) _ (fun _ _ => zero_le_one) (by simpa using hpos) hlo hhi
    simp only [one_mul, List.map_const', List.sum_replicate, nsmul_eq_mul, mul_one] at this
    rw [hv]
    exact this
  · intro v hv
    rw [C57_weighted_mean_woe hp hsort hr h hk, List.mem_singleton] at hv
    rw [hv]
    refine weighted_between (cs := f.classes) _ _ (fun _ _ => Nat.cast_nonneg _) ?_ hlo hhi
    refine List.sum_pos _ ?_ (by simpa using hne)
    intro y hy
    obtain ⟨cl, hcl, rfl⟩ := List.mem_map.1 hy
    exact_mod_cast hall cl hcl

/-- C57: the values of regular records do not depend on `metric_special` and `metric_missing`; numbers given there are
returned for special and missing values. -/
theorem C57_metric_special_missing (hp : ProperCodes sc) (f : FittedM α κ) (ms mm : MetricOpt) (x : Option α) :
    (x ≠ none → ¬ IsSpecialValue sc x →
      transformMeanWoe f sc ms mm [x] = transformMeanWoe f sc .empirical .empirical [x] ∧
      transformWeightedWoe f sc ms mm [x] = transformWeightedWoe f sc .empirical .empirical [x]) ∧
    (x = none → ∀ q, mm = .float q → transformMeanWoe f sc ms mm [x] = [(q : ℝ)] ∧
      transformWeightedWoe f sc ms mm [x] = [(q : ℝ)]) ∧
    (IsSpecialValue sc x → ∀ q, ms = .float q → transformMeanWoe f sc ms mm [x] = [(q : ℝ)] ∧
      transformWeightedWoe f sc ms mm [x] = [(q : ℝ)]) := by
  unfold transformMeanWoe transformWeightedWoe
  refine ⟨fun h1 h2 => ?_, ?_, ?_⟩
  · cases x with
    | none => exact absurd rfl h1
    | some v => simp [transformOne_clean _ _ _ _ _ _ _ h2]
  · rintro rfl q rfl
    simp [transformOne_missing, MetricOpt.forWoe]
  · rintro hs q rfl
    obtain ⟨i, hi, h1, -⟩ := transformOne_special2 (β := ℝ) (γ := ℝ) hp hs
    simp [h1, MetricOpt.forWoe]

theorem oneVsRest_swap (a b A B : ℕ) : oneVsRest b a B A = - oneVsRest a b A B := by
  unfold oneVsRest
  rw [← Real.log_inv, inv_div]

/-- C57, finding: with two classes "mean_woe" is 0 for every value. -/
theorem C57_two_classes (hp : ProperCodes sc) (hsort : ∀ l, (prebin l).Pairwise (· ≤ ·)) (hr : RespectsM c solver)
    (h : fitNumericalM sc none prebin solver recs = .ok f) (h2 : f.classes.length = 2) (x : Option α) :
    transformMeanWoe f sc .empirical .empirical [x] = [0] := by
  obtain ⟨k, h3, h4⟩ := idxM_lt hp f.splits x
  rw [C57_mean_woe hp hsort hr h ((rowOf_iff f sc x k).2 h3)]
  obtain ⟨a, b, hab⟩ := List.length_eq_two.1 h2
  have hne : a ≠ b := by
    have := (C56_classes hsort hr h).1.1
    rw [hab] at this
    simp at this
    exact ne_of_lt this
  have hswap : classWoe recs f.classes (fun x => rowOf f sc x k) b = - classWoe recs f.classes (fun x => rowOf f sc x k) a := by
    have e1 : ∀ q : RecM α κ → Prop, ∀ [DecidablePred q], countRecs recs (fun r => (∃ k ∈ f.classes, r.y = some k ∧ k ≠ a) ∧ q r) =
        countRecs recs (fun r => r.y = some b ∧ q r) := by
      intro q _
      refine countRecs_congr fun r _ => and_congr_left fun _ => ?_
      rw [hab]
      simp [hne.symm]
    have e2 : ∀ q : RecM α κ → Prop, ∀ [DecidablePred q], countRecs recs (fun r => (∃ k ∈ f.classes, r.y = some k ∧ k ≠ b) ∧ q r) =
        countRecs recs (fun r => r.y = some a ∧ q r) := by
      intro q _
      refine countRecs_congr fun r _ => and_congr_left fun _ => ?_
      rw [hab]
      simp [hne]
    have e3 : countRecs recs (fun r => ∃ k ∈ f.classes, r.y = some k ∧ k ≠ a) = countRecs recs (fun r => r.y = some b) := by
      refine countRecs_congr fun r _ => ?_
      rw [hab]; simp [hne.symm]
    have e4 : countRecs recs (fun r => ∃ k ∈ f.classes, r.y = some k ∧ k ≠ b) = countRecs recs (fun r => r.y = some a) := by
      refine countRecs_congr fun r _ => ?_
      rw [hab]; simp [hne]
    unfold classWoe
    simp only [e1, e2, e3, e4, oneVsRest_swap (countRecs recs (fun r => r.y = some a ∧ rowOf f sc r.x k))]
    split_ifs <;> simp_all
  rw [hab] at hswap ⊢
  simp [hswap]

/-- C57, finding: after `read_json` `transform` fails, whatever the file and the object. -/
theorem C57_read_json_transform (o : ObjM α κ) (hfresh : o.splits = none)
    (file : String × SpecialCodes α × List α × List (List ℕ) × List κ) (ms mm : MetricOpt) (x : List (Option α)) :
    (o.readJson file).transform ms mm x = .error "TypeError" := by
  simp [ObjM.readJson, ObjM.transform, hfresh]

/-- C57: the table, on the other hand, survives `to_json` and `read_json`. -/
theorem C57_json_table (o o' : ObjM α κ) (f : FittedM α κ) :
    ∃ file, (o.store f).toJson = .ok file ∧ (o'.readJson file).table = some (o.name, o.special, f.splits, f.event, f.classes) ∧
      (o'.readJson file).isFitted = true := by
  exact ⟨_, rfl, rfl, rfl⟩

end

/-- Non-vacuity of C57 on the fit `exFitM`: a value 5 lies in row 1, and the mean there is that of three logarithms. -/
example : transformMeanWoe exFittedM (.list [some 99]) .empirical .empirical [some 5] =
    [([0, 1, 2].map (classWoe exRecsM [0, 1, 2] fun x => rowOf exFittedM (.list [some 99]) x 1)).sum / ((3 : ℕ) : ℝ)] :=
  C57_mean_woe exCodesM_proper (prebin := fun _ => [3, 7]) (fun _ => by decide) exSolverM_respects exFitM (by decide +kernel)

/-- The WoE of class 0 in row 1: two of four records are of class 0; overall seven of fifteen. -/
example : classWoe exRecsM [0, 1, 2] (fun x => rowOf exFittedM (.list [some 99]) x 1) 0 = Real.log ((2 / 8) / (2 / 7)) := by
  have h1 : countRecs exRecsM (fun r => r.y = some 0 ∧ rowOf exFittedM (.list [some 99]) r.x 1) = 2 := by decide +kernel
  have h2 : countRecs exRecsM (fun r => (∃ k ∈ ([0, 1, 2] : List ℕ), r.y = some k ∧ k ≠ 0) ∧
      rowOf exFittedM (.list [some 99]) r.x 1) = 2 := by decide +kernel
  have h3 : countRecs exRecsM (fun r => r.y = some 0) = 7 := by decide +kernel
  have h4 : countRecs exRecsM (fun r => ∃ k ∈ ([0, 1, 2] : List ℕ), r.y = some k ∧ k ≠ 0) = 8 := by decide +kernel
  unfold classWoe
  simp only [h1, h2, h3, h4]
  norm_num [oneVsRest]

end OptBinning
