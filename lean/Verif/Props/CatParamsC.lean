import Verif.Model.CatParamsC
import Verif.Spec.CatParamsC
import Verif.Props.CatParams
import Verif.Props.ParamsC
import Verif.Props.FitOptimalC

/-!
# C121: `ContinuousOptimalBinning` for a categorical variable
-/
namespace OptBinning
open OptBinning.Spec

variable {κ : Type} [LinearOrder κ] {p : ParamsC} {cutoff : Option XQ} {sc : SpecialCodes κ} {rank : List (RecC κ) → List κ}
  {prebin : List (RecC ℚ) → List ℚ} {solver : SolverC} {old old' : MissingStats} {recs : List (RecC κ)} {f : CatFittedC κ}

theorem inCatsC_iff (cs : List κ) (r : RecC κ) : r.inCats cs = true ↔ ∃ v ∈ cs, r.x = some v := by
  cases hx : r.x with
  | none => simp [RecC.inCats, hx]
  | some v => simp [RecC.inCats, hx]

theorem isBinnedC_iff (sc : SpecialCodes κ) (r : RecC κ) : (!r.isMissing && !r.isSpecial sc) = true ↔ IsBinnedC sc r := by
  rw [Bool.and_eq_true, Bool.not_eq_true', Bool.not_eq_true', Bool.eq_false_iff (b := r.isSpecial sc), Ne, isSpecial_iff]
  unfold IsBinnedC RecC.isMissing
  cases r.x <;> cases r.y <;> simp

theorem cleanC_mem {r : RecC κ} : r ∈ (splitDataC sc none recs).clean ↔ r ∈ recs ∧ IsBinnedC sc r := by
  show r ∈ recs.filter _ ↔ _
  rw [List.mem_filter, isBinnedC_iff]

open Classical in
theorem rankedC_eq (sc : SpecialCodes κ) (cats others : List κ) (recs : List (RecC κ)) :
    rankedRecsC sc cats others recs = ((splitDataC sc none recs).clean.filter fun r => !r.inCats others).map (RecC.encode cats) := by
  have hcl : (splitDataC sc none recs).clean = recs.filter fun r => !r.isMissing && !r.isSpecial sc := rfl
  rw [hcl, List.filter_filter]
  unfold rankedRecsC
  congr 1
  refine List.filter_congr fun r _ => ?_
  rw [Bool.eq_iff_iff, decide_eq_true_eq, Bool.and_eq_true, isBinnedC_iff, Bool.not_eq_true', Bool.eq_false_iff, Ne, inCatsC_iff, and_comm]
  push Not
  rfl

open Classical in
/-- The same records in a list of the length of `recs`: the others as missing records. -/
noncomputable def catAsNumbers (sc : SpecialCodes κ) (cats others : List κ) (recs : List (RecC κ)) : List (RecC ℚ) :=
  recs.map fun r => if IsBinnedC sc r ∧ ∀ v ∈ others, r.x ≠ some v then r.encode cats else ⟨none, none, 1⟩

open Classical in
theorem catAsNumbers_clean (sc : SpecialCodes κ) (cats others : List κ) (recs : List (RecC κ)) :
    (splitDataC .none none (catAsNumbers sc cats others recs)).clean = rankedRecsC sc cats others recs := by
  show (catAsNumbers sc cats others recs).filter _ = _
  induction recs with
  | nil => rfl
  | cons r l ih =>
    unfold catAsNumbers rankedRecsC at ih ⊢
    rw [List.map_cons, List.filter_cons, List.filter_cons, ih]
    by_cases h : IsBinnedC sc r ∧ ∀ v ∈ others, r.x ≠ some v
    · obtain ⟨hy, hx, -⟩ := h.1
      have h1 : ((!(r.encode cats).isMissing && !(r.encode cats).isSpecial SpecialCodes.none) : Bool) = true := by
        cases hx' : r.x with
        | none => exact absurd hx' hx
        | some v =>
          cases hy' : r.y with
          | none => exact absurd hy' hy
          | some y => simp [RecC.encode, RecC.isMissing, RecC.isSpecial, SpecialCodes.codes, hx', hy']
      rw [if_pos h, if_pos h1, if_pos (decide_eq_true h), List.map_cons]
      rfl
    · rw [if_neg h, if_neg (by simp [RecC.isMissing]), if_neg (by simpa using h)]

theorem checkParametersC_cat (p : ParamsC) : checkParametersC p.forCategorical = checkParametersC p := rfl

theorem fitCatParamsC_ok (h : fitCatParamsC p cutoff sc rank prebin solver old recs = .ok (old', f)) : checkParametersC p = .ok () ∧ badCutoff cutoff = false ∧
    fitCategoricalC sc (cutoff.map XQ.value) rank prebin solver old recs = .ok (old', f) := by
  unfold fitCatParamsC at h
  split at h
  · cases h
  rename_i h1
  split_ifs at h with h2
  exact ⟨h1, by simpa using h2, h⟩

theorem fitCategoricalC_unpack {c : Option ℚ} (h : fitCategoricalC sc c rank prebin solver old recs = .ok (old', f)) :
    cutoffOthersC c (splitDataC sc none recs).clean = .ok f.others ∧
    f.categories = rank ((splitDataC sc none recs).clean.filter fun r => !r.inCats f.others) ∧
    ∃ special st', specialRows sc (splitDataC sc none recs).special = .ok special ∧
      fitCoreC false solver (rankedRecsC sc f.categories f.others recs)
        (if f.others.length = 0 then none else some (summaryC ((splitDataC sc none recs).clean.filter fun r => r.inCats f.others)))
        special (missingRow old (splitDataC sc none recs).missing) {} (prebin (rankedRecsC sc f.categories f.others recs)) =
        .ok (st', ⟨f.status, f.splits, f.rows⟩) := by
  unfold fitCategoricalC at h
  simp only at h
  split at h
  · cases h
  rename_i others ho
  split at h
  · cases h
  rename_i special hs
  split at h
  · cases h
  rename_i q hq
  simp only [Except.ok.injEq, Prod.mk.injEq] at h
  obtain ⟨-, rfl⟩ := h
  refine ⟨ho, rfl, special, q.1, hs, ?_⟩
  simp only [rankedC_eq]
  exact hq

/-- The bins of a fit do not depend on the rows after them. -/
theorem fitCoreC_first_rows {α : Type*} [LinearOrder α] {clean : List (RecC α)} {o1 o2 : Option RowC} {s1 s2 : List RowC} {m1 m2 : RowC}
    {st st' : PrebinState α} {splits : List α} {f : FittedC α}
    (hsolver : ∀ cells : List CellC, 0 < cells.length → (solve cells.length (solver cells)).2.getLast? = some true)
    (h : fitCoreC false solver clean o1 s1 m1 st splits = .ok (st', f)) :
    ∃ g, fitCoreC false solver clean o2 s2 m2 st splits = .ok (st', g) ∧ g.status = f.status ∧ g.splits = f.splits ∧
      ∀ k ≤ f.splits.length, g.rows[k]? = f.rows[k]? := by
  have key : ∀ (X Y Z : List RowC) (k : ℕ), k < X.length → (X ++ Y)[k]? = (X ++ Z)[k]? := fun X Y Z k hk => by
    rw [List.getElem?_append_left hk, List.getElem?_append_left hk]
  obtain ⟨hc, hcase⟩ := fitCoreC_cases h
  unfold fitCoreC at h ⊢
  rcases hcase with ⟨rfl, rfl⟩ | ⟨pb, h1, hpb, rfl, rfl⟩
  · simp only [List.length_nil, if_true, bind, Except.bind, pure, Except.pure, hc, if_false, Except.ok.injEq, Prod.mk.injEq] at h ⊢
    refine ⟨_, ⟨h.1, rfl⟩, rfl, rfl, ?_⟩
    intro k hk
    have : k = 0 := by simpa using hk
    subst this
    simp [fitOptimizerC, accumRows]
  · obtain ⟨hsub, h2, h3, h4⟩ := computePrebinsC_spec _ _ _ _ _ hpb
    have hlen : pb.cells.length = pb.splits.length + 1 := by rw [h3]; simp [prebinCells, prebinNumber]
    have hpos : 0 < pb.splits.length := List.length_pos_iff.2 h2
    have hn2 : ¬ pb.cells.length ≤ 1 := by omega
    have hl : ¬ splits.length = 0 := fun h0 => h1 (List.length_eq_zero_iff.1 h0)
    have hsl := solve_length pb.cells.length (solver pb.cells)
    have hlast := hsolver pb.cells (by omega)
    have hne : ¬ (solve pb.cells.length (solver pb.cells)).2.length = 0 := by omega
    simp only [hl, hpb, bind, Except.bind, pure, Except.pure, fitOptimizerC, hn2, hc, if_false, hne, Bool.false_eq_true, List.append_nil,
      Except.ok.injEq, Prod.mk.injEq, true_and] at h ⊢
    refine ⟨_, rfl, rfl, rfl, ?_⟩
    intro k hk
    simp only [List.append_assoc]
    refine key _ _ _ _ ?_
    rw [accumRows_cells, List.length_map, accumCells_length _ _ _ hsl]
    have hcount : (solve pb.cells.length (solver pb.cells)).2.count true = (solve pb.cells.length (solver pb.cells)).2.dropLast.count true + 1 := by
      obtain ⟨l, hl⟩ := List.getLast?_eq_some_iff.1 hlast
      rw [hl]; simp
    have hsel : (select pb.splits (solve pb.cells.length (solver pb.cells)).2.dropLast).length + 1 = (solve pb.cells.length (solver pb.cells)).2.count true := by
      rw [hcount, length_select _ _ (by rw [List.length_dropLast, hsl, hlen]; rfl)]
    omega

/-- A fit of a categorical variable is a fit of the positions of the categories in the ranking. -/
theorem cat_numericalC (hsolver : ∀ cells : List CellC, 0 < cells.length → (solve cells.length (solver cells)).2.getLast? = some true)
    (h : fitCatParamsC p cutoff sc rank prebin solver old recs = .ok (old', f)) :
    ∃ o g, fitParamsC p.forCategorical .none none prebin solver {} (catAsNumbers sc f.categories f.others recs) = .ok (o, g) ∧ g.status = f.status ∧
      g.splits = f.splits ∧ ∀ k ≤ f.splits.length, g.rows[k]? = f.rows[k]? := by
  obtain ⟨h1, -, h3⟩ := fitCatParamsC_ok h
  obtain ⟨-, -, special, st', -, h4⟩ := fitCategoricalC_unpack h3
  obtain ⟨g, g1, g2, g3, g4⟩ := fitCoreC_first_rows (o2 := none)
    (s2 := [summaryC (splitDataC .none none (catAsNumbers sc f.categories f.others recs)).special])
    (m2 := missingRow {} (splitDataC .none none (catAsNumbers sc f.categories f.others recs)).missing) hsolver h4
  refine ⟨⟨(missingRow {} (splitDataC .none none (catAsNumbers sc f.categories f.others recs)).missing).var,
    (missingRow {} (splitDataC .none none (catAsNumbers sc f.categories f.others recs)).missing).mn,
    (missingRow {} (splitDataC .none none (catAsNumbers sc f.categories f.others recs)).missing).mx⟩, g, ?_, g2, g3, g4⟩
  unfold fitParamsC
  rw [checkParametersC_cat, h1]
  unfold fitNumericalC
  simp only [specialRows, catAsNumbers_clean, g1, bind, Except.bind, pure, Except.pure]

theorem catAsNumbers_length (sc : SpecialCodes κ) (cats others : List κ) (recs : List (RecC κ)) :
    (catAsNumbers sc cats others recs).length = recs.length := by simp [catAsNumbers]

theorem rowShows_congr {a b : List RowC} {k cnt : ℕ} {m : ℚ} {sd : ℝ} (h : a[k]? = b[k]?) : RowShows a k cnt m sd ↔ RowShows b k cnt m sd := by
  unfold RowShows
  rw [h]

theorem catC_trend (h : p.trend ≠ .none) : p.forCategorical.trend = .ascending := by
  unfold ParamsC.forCategorical TrendArg.categorical
  cases hp : p.trend <;> simp_all

/-- C121: a fit which succeeds had valid arguments. -/
theorem C121_accepted (h : fitCatParamsC p cutoff sc rank prebin solver old recs = .ok (old', f)) : checkParametersC p = .ok () ∧
    ∀ v, cutoff = some v → NumIn v fun q => 0 < q ∧ q ≤ 1 := by
  obtain ⟨h1, h2, -⟩ := fitCatParamsC_ok h
  refine ⟨h1, ?_⟩
  rintro v rfl
  cases v <;> simp_all [badCutoff, XQ.above, XQ.atMost, NumIn]

/-- C121: a fit with at least two bins meets the requested limits: the number of bins is in the limits, each bin (a row before "others")
has at least `min_bin_size * N` records and less than one record more than `max_bin_size * N` (`N` records passed to `fit`). -/
theorem C121_limits (hull : List ℚ → Option ℚ) (pv : ℚ → ℝ → ℕ → ℚ → ℝ → ℕ → ℝ) (h : fitCatParamsC p cutoff sc rank prebin solver old recs = .ok (old', f))
    (hr : RespectsC (p.forCategorical.cfg hull pv recs.length) solver) (hne : f.splits ≠ []) :
    (∀ b, p.minBins = some b → b ≤ f.splits.length + 1) ∧ (∀ b, p.maxBins = some b → (f.splits.length : ℤ) + 1 ≤ b) ∧
    ∀ k ≤ f.splits.length, ∃ (cnt : ℕ) (m : ℚ) (sd : ℝ), RowShows f.rows k cnt m sd ∧ 0 < cnt ∧
      (∀ q, p.minBinSize = some (.num q) → q * (recs.length : ℚ) ≤ (cnt : ℚ)) ∧
      (∀ q, p.maxBinSize = some (.num q) → (cnt : ℚ) < q * (recs.length : ℚ) + 1) := by
  obtain ⟨o, g, g1, -, g3, g4⟩ := cat_numericalC (fun cells hn => hr.last cells hn) h
  obtain ⟨a, b, c⟩ := C104_limits p.forCategorical hull pv _ _ _ _ _ _ _ g (by rw [catAsNumbers_length]; exact hr) g1 (by rw [g3]; exact hne)
  rw [catAsNumbers_length, g3] at c
  rw [g3] at a b
  refine ⟨a, b, fun k hk => ?_⟩
  obtain ⟨cnt, m, sd, e1, e2⟩ := c k hk
  exact ⟨cnt, m, sd, (rowShows_congr (g4 k hk)).1 e1, e2⟩

/-- C121: with any `monotonic_trend` except None the Means of the bins ascend, truncated towards zero to six digits. -/
theorem C121_trend (hull : List ℚ → Option ℚ) (pv : ℚ → ℝ → ℕ → ℚ → ℝ → ℕ → ℝ) (h : fitCatParamsC p cutoff sc rank prebin solver old recs = .ok (old', f))
    (hr : RespectsC (p.forCategorical.cfg hull pv recs.length) solver) (ht : p.trend ≠ .none) (hne : f.splits ≠ []) (cnt : ℕ → ℕ) (m : ℕ → ℚ) (sd : ℕ → ℝ)
    (hm : ∀ k ≤ f.splits.length, RowShows f.rows k (cnt k) (m k) (sd k)) (j k : ℕ) (hjk : j < k) (hk : k ≤ f.splits.length) :
    truncRat (m j * 1000000) ≤ truncRat (m k * 1000000) := by
  obtain ⟨o, g, g1, -, g3, g4⟩ := cat_numericalC (fun cells hn => hr.last cells hn) h
  have := C104_trend p.forCategorical hull pv _ _ _ _ _ _ _ g (by rw [catAsNumbers_length]; exact hr) g1 (by rw [g3]; exact hne) cnt m sd
    (fun k hk => (rowShows_congr (g4 k (by rw [← g3]; exact hk))).2 (hm k (by rw [← g3]; exact hk)))
  rw [catC_trend ht] at this
  exact this j k (Nat.zero_le _) hjk (by rw [g3]; omega)

/-- C121: the Means of the bins do not decrease by 2e-6 or more. -/
theorem C121_monotone (hull : List ℚ → Option ℚ) (pv : ℚ → ℝ → ℕ → ℚ → ℝ → ℕ → ℝ) (h : fitCatParamsC p cutoff sc rank prebin solver old recs = .ok (old', f))
    (hr : RespectsC (p.forCategorical.cfg hull pv recs.length) solver) (ht : p.trend ≠ .none) (hne : f.splits ≠ []) (cnt : ℕ → ℕ) (m : ℕ → ℚ) (sd : ℕ → ℝ)
    (hm : ∀ k ≤ f.splits.length, RowShows f.rows k (cnt k) (m k) (sd k)) (j k : ℕ) (hjk : j < k) (hk : k ≤ f.splits.length) :
    m j < m k + 2 / 1000000 :=
  trunc_le_imp (C121_trend hull pv h hr ht hne cnt m sd hm j k hjk hk)

/-- C121: `min_mean_diff`: the Means of neighbouring bins differ at least by this much. -/
theorem C121_min_mean_diff (hull : List ℚ → Option ℚ) (pv : ℚ → ℝ → ℕ → ℚ → ℝ → ℕ → ℝ) (h : fitCatParamsC p cutoff sc rank prebin solver old recs = .ok (old', f))
    (hr : RespectsC (p.forCategorical.cfg hull pv recs.length) solver) (cnt : ℕ → ℕ) (m : ℕ → ℚ) (sd : ℕ → ℝ)
    (hm : ∀ k ≤ f.splits.length, RowShows f.rows k (cnt k) (m k) (sd k)) (v : ℚ) (hv : p.minMeanDiff = .num v) (k : ℕ)
    (hk : k + 1 ≤ f.splits.length) : v ≤ |m k - m (k + 1)| := by
  obtain ⟨o, g, g1, -, g3, g4⟩ := cat_numericalC (fun cells hn => hr.last cells hn) h
  exact C104_min_mean_diff p.forCategorical hull pv _ _ _ _ _ _ _ g (by rw [catAsNumbers_length]; exact hr) g1 cnt m sd
    (fun k hk => (rowShows_congr (g4 k (by rw [← g3]; exact hk))).2 (hm k (by rw [← g3]; exact hk))) v hv k (by rw [g3]; exact hk)

/-- C121: `max_pvalue`: the p-value of the t-test of two neighbouring bins (any two bins with policy "all") is at most `max_pvalue`. -/
theorem C121_pvalues (hull : List ℚ → Option ℚ) (pv : ℚ → ℝ → ℕ → ℚ → ℝ → ℕ → ℝ) (h : fitCatParamsC p cutoff sc rank prebin solver old recs = .ok (old', f))
    (hr : RespectsC (p.forCategorical.cfg hull pv recs.length) solver) (cnt : ℕ → ℕ) (m : ℕ → ℚ) (sd : ℕ → ℝ)
    (hm : ∀ k ≤ f.splits.length, RowShows f.rows k (cnt k) (m k) (sd k)) (v : ℚ) (hv : p.maxPvalue = some (.num v)) (j k : ℕ)
    (hjk : j < k) (hk : k ≤ f.splits.length) (hpol : p.policy = .consecutive → k = j + 1) :
    pv (m j) (sd j) (cnt j) (m k) (sd k) (cnt k) ≤ (v : ℝ) := by
  obtain ⟨o, g, g1, -, g3, g4⟩ := cat_numericalC (fun cells hn => hr.last cells hn) h
  exact C104_pvalues p.forCategorical hull pv _ _ _ _ _ _ _ g (by rw [catAsNumbers_length]; exact hr) g1 cnt m sd
    (fun k hk => (rowShows_congr (g4 k (by rw [← g3]; exact hk))).2 (hm k (by rw [← g3]; exact hk))) v hv j k hjk (by rw [g3]; exact hk) hpol

theorem meet_catC {pv : ℚ → ℝ → ℕ → ℚ → ℝ → ℕ → ℝ} {n : ℕ} {α : Type*} [LinearOrder α] {rs : List (RecC α)} {cs : List α} (h : CutsMeetC { p with trend := .none } pv n rs cs)
    (ha : p.trend ≠ .none → MeansRise rs cs 0 (cs.length + 1)) : CutsMeetC p.forCategorical pv n rs cs := by
  have hno : ∀ t : TrendArg, t ≠ .none → t ≠ .ascending → p.forCategorical.trend ≠ t := by
    intro t h1 h2 he
    by_cases ht : p.trend = .none
    · exact h1 (by rw [← he]; simp [ParamsC.forCategorical, TrendArg.categorical, ht])
    · exact h2 (by rw [← he, catC_trend ht])
  refine ⟨h.minBins, h.maxBins, h.minSize, h.maxSize, fun he => ha ?_, fun he => absurd he (hno _ (by simp) (by simp)),
    fun he => absurd he (hno _ (by simp) (by simp)), fun he => absurd he (hno _ (by simp) (by simp)), h.minDiff, h.pvalue⟩
  intro hn
  simp [ParamsC.forCategorical, TrendArg.categorical, hn] at he

/-- C121: the splits found are optimal among the selections of the pre-splits `ps` of the ranking which meet the limits, up to one millionth
per bin. -/
theorem C121_optimal (hull : List ℚ → Option ℚ) (pv : ℚ → ℝ → ℕ → ℚ → ℝ → ℕ → ℝ) (hu : UnitWeights recs) (hsort : ∀ l, (prebin l).Pairwise (· ≤ ·))
    (h : fitCatParamsC p cutoff sc rank prebin solver old recs = .ok (old', f))
    (hr : RespectsC (p.forCategorical.cfg hull pv recs.length) solver) (hs : f.status = "OPTIMAL") :
    ∃ ps : List ℚ, f.splits.Sublist ps ∧ ps.Sublist (prebin (rankedRecsC sc f.categories f.others recs)) ∧
      (CutsFilled (rankedRecsC sc f.categories f.others recs) (prebin (rankedRecsC sc f.categories f.others recs)) →
        ps = prebin (rankedRecsC sc f.categories f.others recs)) ∧
      ∀ cs : List ℚ, cs.Sublist ps → CutsMeetC { p with trend := .none } pv recs.length (rankedRecsC sc f.categories f.others recs) cs →
        (p.trend ≠ .none → MeansRise (rankedRecsC sc f.categories f.others recs) cs 0 (cs.length + 1)) →
        cutDistance (rankedRecsC sc f.categories f.others recs) cs ≤
          cutDistance (rankedRecsC sc f.categories f.others recs) f.splits + ((cs.length : ℚ) + 1) / 1000000 := by
  obtain ⟨o, g, g1, g2, g3, -⟩ := cat_numericalC (fun cells hn => hr.last cells hn) h
  have hplain : PlainTrendC p.forCategorical (splitDataC .none none (catAsNumbers sc f.categories f.others recs)).clean := by
    refine Or.inl ?_
    by_cases ht : p.trend = .none
    · exact Or.inl (by simp [ParamsC.forCategorical, TrendArg.categorical, ht])
    · exact Or.inr (Or.inl (catC_trend ht))
  obtain ⟨ps, a, b, c, d⟩ := C105_optimal p.forCategorical hull pv .none none prebin solver {} o _ g (fun q hq => by
      unfold catAsNumbers at hq
      obtain ⟨r, hr, rfl⟩ := List.mem_map.1 hq
      split_ifs
      · exact hu r hr
      · rfl) hsort hplain (by rw [catAsNumbers_length]; exact hr) g1 (g2.trans hs)
  rw [catAsNumbers_clean] at b c d
  rw [g3] at a d
  rw [catAsNumbers_length] at d
  exact ⟨ps, a, b, c, fun cs hcs hm ha => d cs hcs (meet_catC hm ha)⟩

/-- The categories of a fit: regular ones and those moved to "others". -/
theorem fit_categoriesC {c : Option ℚ} (hrank : ∀ l, IsRankingC l (rank l)) (h : fitCategoricalC sc c rank prebin solver old recs = .ok (old', f)) :
    f.categories.Nodup ∧ (∀ v, v ∈ f.categories ↔ IsTrainCategoryC sc recs v ∧ v ∉ f.others) ∧ (∀ v ∈ f.others, IsTrainCategoryC sc recs v) := by
  obtain ⟨ho, hc, -⟩ := fitCategoricalC_unpack h
  have hr := hrank ((splitDataC sc none recs).clean.filter fun r => !r.inCats f.others)
  rw [← hc] at hr
  refine ⟨hr.nodup, fun v => ?_, fun v hv => ?_⟩
  · rw [hr.mem]
    simp only [List.mem_filter, Bool.not_eq_true', Bool.eq_false_iff, ne_eq, inCatsC_iff, cleanC_mem]
    constructor
    · rintro ⟨r, ⟨⟨h1, h2⟩, h3⟩, h4⟩
      exact ⟨⟨r, h1, h2, h4⟩, fun hv => h3 ⟨v, hv, h4⟩⟩
    · rintro ⟨⟨r, h1, h2, h4⟩, h3⟩
      refine ⟨r, ⟨⟨h1, h2⟩, ?_⟩, h4⟩
      rintro ⟨w, hw, hx⟩
      rw [h4] at hx
      cases hx
      exact h3 hw
  · obtain ⟨⟨r, hr, hx⟩, -⟩ := ((cutoffOthers_mem ho).2 v).1 hv
    obtain ⟨q, hq, rfl⟩ := List.mem_map.1 hr
    rw [cleanC_mem] at hq
    exact ⟨q, hq.1, hq.2, hx⟩

open Classical in
/-- C121, `cat_cutoff`: exactly the training categories with less than the fraction `cat_cutoff` of the binned records are in the group "others". -/
theorem C121_others (h : fitCatParamsC p cutoff sc rank prebin solver old recs = .ok (old', f)) (v : κ) :
    v ∈ f.others ↔ IsTrainCategoryC sc recs v ∧ ∃ q, cutoff = some (.num q) ∧
      (((groupTargets sc recs [v]).length : ℕ) : ℚ) < q * ((binnedCount sc recs : ℕ) : ℚ) := by
  have hcut := (C121_accepted h).2
  obtain ⟨ho, -, -⟩ := fitCategoricalC_unpack (fitCatParamsC_ok h).2.2
  unfold cutoffOthersC at ho
  rw [(cutoffOthers_mem ho).2 v]
  have h1 : (∃ r ∈ ((splitDataC sc none recs).clean.map fun r => (⟨r.x, none, r.w⟩ : Rec κ)), r.x = some v) ↔ IsTrainCategoryC sc recs v := by
    constructor
    · rintro ⟨r, hr, hx⟩
      obtain ⟨q, hq, rfl⟩ := List.mem_map.1 hr
      rw [cleanC_mem] at hq
      exact ⟨q, hq.1, hq.2, hx⟩
    · rintro ⟨q, h1, h2, h3⟩
      exact ⟨_, List.mem_map.2 ⟨q, cleanC_mem.2 ⟨h1, h2⟩, rfl⟩, h3⟩
  have h2 : catCount ((splitDataC sc none recs).clean.map fun r => (⟨r.x, none, r.w⟩ : Rec κ)) v = (groupTargets sc recs [v]).length := by
    unfold catCount groupTargets
    rw [List.countP_map, List.length_filterMap_eq_countP, List.countP_filter]
    have hcl : (splitDataC sc none recs).clean = recs.filter fun r => !r.isMissing && !r.isSpecial sc := rfl
    rw [hcl, List.countP_filter]
    refine List.countP_congr fun r _ => ?_
    rw [Bool.and_eq_true, isBinnedC_iff, Bool.and_eq_true, decide_eq_true_eq]
    constructor
    · rintro ⟨a, b⟩
      exact ⟨Option.isSome_iff_ne_none.2 b.1, b, v, by simp, of_decide_eq_true a⟩
    · rintro ⟨-, b, w, hw, a⟩
      rw [List.mem_singleton] at hw
      subst hw
      exact ⟨decide_eq_true a, b⟩
  have h3 : ((splitDataC sc none recs).clean.map fun r => (⟨r.x, none, r.w⟩ : Rec κ)).length = binnedCount sc recs := by
    rw [List.length_map]
    show (recs.filter _).length = _
    rw [← List.countP_eq_length_filter]
    unfold binnedCount
    exact List.countP_congr fun r _ => by rw [isBinnedC_iff, decide_eq_true_eq]
  rw [h1, h2, h3]
  refine and_congr_right fun _ => ?_
  constructor
  · rintro ⟨q, hq, hlt⟩
    cases hc : cutoff with
    | none => rw [hc] at hq; cases hq
    | some x =>
      obtain ⟨q', rfl, -⟩ := hcut x hc
      rw [hc] at hq
      cases hq
      exact ⟨q', rfl, hlt⟩
  · rintro ⟨q, hq, hlt⟩
    exact ⟨q, by rw [hq]; rfl, hlt⟩

/-- C121: the groups of categories: the splits cut the ranking into consecutive pieces, and bin `k` holds the categories of piece `k`. -/
theorem C121_bins (hrank : ∀ l, IsRankingC l (rank l))
    (hsort : ∀ l, (prebin l).Pairwise (· ≤ ·)) (h : fitCatParamsC p cutoff sc rank prebin solver old recs = .ok (old', f))
    (v : κ) (k : ℕ) (hk : k ≤ f.splits.length) :
    v ∈ f.bins.getD k [] ↔ v ∈ f.categories ∧ InInterval f.splits k ((f.categories.idxOf v : ℕ) : ℚ) := by
  obtain ⟨hn, -, -⟩ := fit_categoriesC hrank (fitCatParamsC_ok h).2.2
  obtain ⟨-, -, special, st', -, h4⟩ := fitCategoricalC_unpack (fitCatParamsC_ok h).2.2
  have hs : f.splits.Pairwise (· ≤ ·) := by
    obtain ⟨-, hcase⟩ := fitCoreC_cases h4
    rcases hcase with ⟨-, e⟩ | ⟨pb, -, hpb, -, e⟩
    · have : f.splits = [] := congrArg FittedC.splits e
      rw [this]; exact List.Pairwise.nil
    · have : f.splits = _ := congrArg FittedC.splits e
      rw [this]
      exact (hsort _).sublist ((select_sublist _ _).trans (computePrebinsC_spec _ _ _ _ _ hpb).1)
  show v ∈ (CatFitted.bins ⟨f.status, f.splits, f.categories, f.others, [], []⟩).getD k [] ↔ _
  rw [mem_bins hn, ← inInterval_iff hs]
  constructor
  · rintro (⟨-, a, b⟩ | ⟨a, -⟩)
    · exact ⟨a, b⟩
    · simp only at a; omega
  · rintro ⟨a, b⟩
    exact Or.inl ⟨hk, a, b⟩

theorem filterMap_encode (cats : List κ) (l : List (RecC κ)) (P : RecC ℚ → Bool) :
    ((l.map (RecC.encode cats)).filter P).filterMap RecC.y = (l.filter fun r => P (r.encode cats)).filterMap RecC.y := by
  induction l with
  | nil => rfl
  | cons r l ih =>
    rw [List.map_cons, List.filter_cons, List.filter_cons]
    by_cases h : P (r.encode cats) = true
    · rw [if_pos h, if_pos h, List.filterMap_cons, List.filterMap_cons, ih]
      rfl
    · rw [if_neg h, if_neg h, ih]

open Classical in
/-- C121: the rows of the table: row `k` describes the targets of the records whose category is in bin `k`; if there is a group "others" the
row after the bins describes the targets of its records. -/
theorem C121_rows (hull : List ℚ → Option ℚ) (pv : ℚ → ℝ → ℕ → ℚ → ℝ → ℕ → ℝ) (hrank : ∀ l, IsRankingC l (rank l))
    (hsort : ∀ l, (prebin l).Pairwise (· ≤ ·)) (hu : UnitWeights recs) (h : fitCatParamsC p cutoff sc rank prebin solver old recs = .ok (old', f))
    (hr : RespectsC (p.forCategorical.cfg hull pv recs.length) solver) (k : ℕ) (hk : k < f.bins.length) :
    ∃ row, f.rows[k]? = some row ∧ Summarises (groupTargets sc recs (f.bins.getD k [])) row.cnt row.sum row.var row.mn row.mx row.zeros := by
  have h3 := (fitCatParamsC_ok h).2.2
  obtain ⟨hn, hcat, hoth⟩ := fit_categoriesC hrank h3
  obtain ⟨-, -, special, st', -, h4⟩ := fitCategoricalC_unpack h3
  have hbl : f.bins.length = f.splits.length + 1 + if f.others.length = 0 then 0 else 1 := bins_length ⟨f.status, f.splits, f.categories, f.others, [], []⟩
  have hclean : ∀ r ∈ (splitDataC sc none recs).clean, r.y ≠ none ∧ r.w = 1 := fun r hr => by
    rw [cleanC_mem] at hr
    exact ⟨hr.2.1, hu r hr.1⟩
  have hrk : ∀ q ∈ rankedRecsC sc f.categories f.others recs, q.x ≠ none ∧ q.y ≠ none ∧ q.w = 1 := by
    rw [rankedC_eq]
    intro q hq
    obtain ⟨r, hr, rfl⟩ := List.mem_map.1 hq
    have hr := (List.mem_filter.1 hr).1
    refine ⟨?_, (hclean r hr).1, (hclean r hr).2⟩
    have := (cleanC_mem.1 hr).2.2.1
    cases hx : r.x with
    | none => exact absurd hx this
    | some v => simp [RecC.encode, hx]
  have hplain : PlainC (rankedRecsC sc f.categories f.others recs) := ⟨fun q hq => (hrk q hq).2.1, fun q hq => (hrk q hq).2.2⟩
  obtain ⟨-, reg, hrows, hreg, hall⟩ := fitCoreC_rows (fun cells hn => hr.last cells hn) (fun q hq => (hrk q hq).1) hplain.whole (hsort _) h4
  simp only at hrows hreg hall
  have hgt : ∀ (l : List (RecC ℚ)) (g : List κ), l.Perm ((rankedRecsC sc f.categories f.others recs).filter fun r => digitize false f.splits r.x == k) →
      (∀ v, v ∈ g ↔ v ∈ f.categories ∧ digitize false f.splits (some ((f.categories.idxOf v : ℕ) : ℚ)) = k) → (ysOf l).Perm (groupTargets sc recs g) := by
    intro l g hp hg
    refine (hp.filterMap RecC.y).trans (List.Perm.of_eq ?_)
    rw [rankedC_eq, filterMap_encode, List.filter_filter]
    have hcl : (splitDataC sc none recs).clean = recs.filter fun r => !r.isMissing && !r.isSpecial sc := rfl
    rw [hcl, List.filter_filter]
    unfold groupTargets
    congr 1
    refine List.filter_congr fun r hr => ?_
    rw [Bool.eq_iff_iff, Bool.and_eq_true, Bool.and_eq_true, isBinnedC_iff, decide_eq_true_eq, beq_iff_eq, Bool.not_eq_true', Bool.eq_false_iff, Ne, inCatsC_iff]
    constructor
    · rintro ⟨⟨a, b⟩, c⟩
      refine ⟨c, ?_⟩
      cases hx : r.x with
      | none => exact absurd hx c.2.1
      | some v =>
        refine ⟨v, (hg v).2 ⟨(hcat v).2 ⟨⟨r, hr, c, hx⟩, fun hv => b ⟨v, hv, hx⟩⟩, ?_⟩, rfl⟩
        rw [← a]; simp [RecC.encode, hx]
    · rintro ⟨c, v, hv, hx⟩
      obtain ⟨d, e⟩ := (hg v).1 hv
      refine ⟨⟨?_, ?_⟩, c⟩
      · rw [← e]; simp [RecC.encode, hx]
      · rintro ⟨w, hw, hx'⟩
        rw [hx] at hx'
        cases hx'
        exact ((hcat v).1 d).2 hw
  have hmem : ∀ v, v ∈ f.bins.getD k [] ↔ (k ≤ f.splits.length ∧ v ∈ f.categories ∧ digitize false f.splits (some ((f.categories.idxOf v : ℕ) : ℚ)) = k) ∨
      (k = f.splits.length + 1 ∧ v ∈ f.others) := fun v =>
    mem_bins (f := ⟨f.status, f.splits, f.categories, f.others, [], []⟩) hn v k
  rcases Nat.lt_or_ge f.splits.length k with hk1 | hk1
  · have hk2 : k = f.splits.length + 1 := by split_ifs at hbl <;> omega
    have ho : f.others.length ≠ 0 := fun h0 => by rw [if_pos h0] at hbl; omega
    have hpl : PlainC ((splitDataC sc none recs).clean.filter fun r => r.inCats f.others) :=
      ⟨fun q hq => (hclean q (List.mem_filter.1 hq).1).1, fun q hq => (hclean q (List.mem_filter.1 hq).1).2⟩
    refine ⟨summaryC ((splitDataC sc none recs).clean.filter fun r => r.inCats f.others), ?_, ?_⟩
    · rw [hrows, List.getElem?_append_right (by omega), hreg, hk2, Nat.sub_self, if_neg ho]
      rfl
    · have key := summaryC_summarises hpl
      have : ysOf ((splitDataC sc none recs).clean.filter fun r => r.inCats f.others) = groupTargets sc recs (f.bins.getD k []) := by
        have hcl : (splitDataC sc none recs).clean = recs.filter fun r => !r.isMissing && !r.isSpecial sc := rfl
        rw [hcl, List.filter_filter]
        unfold groupTargets ysOf
        congr 1
        refine List.filter_congr fun r _ => ?_
        rw [Bool.eq_iff_iff, Bool.and_eq_true, isBinnedC_iff, decide_eq_true_eq, inCatsC_iff, and_comm]
        refine and_congr_right fun _ => exists_congr fun v => and_congr_left fun _ => ?_
        rw [hmem v]
        constructor
        · exact fun hv => Or.inr ⟨hk2, hv⟩
        · rintro (⟨a, -⟩ | ⟨-, a⟩)
          · omega
          · exact a
      rw [← this]
      exact key
  · obtain ⟨l, hp, hrow⟩ := hall k hk1
    have hpl : PlainC l := hplain.subset fun q hq => (List.mem_filter.1 (hp.subset hq)).1
    have hperm := hgt l (f.bins.getD k []) hp fun v => by
      rw [hmem v]
      constructor
      · rintro (⟨-, a⟩ | ⟨a, -⟩)
        · exact a
        · omega
      · exact fun a => Or.inl ⟨hk1, a⟩
    have hkr : f.rows[k]? = reg[k]? := by rw [hrows, List.getElem?_append_left (by omega)]
    rcases hrow with hrow | hrow
    · exact ⟨_, hkr.trans hrow, (cellOf_summarises hpl).perm hperm⟩
    · exact ⟨_, hkr.trans hrow, (summaryC_summarises hpl).perm hperm⟩

/-- C121, finding: `monotonic_trend="descending"` is accepted for a categorical variable and has the same effect as "ascending". -/
theorem C121_descending (t t' : TrendArg) (ht : t ≠ .none) (ht' : t' ≠ .none) (hull : List ℚ → Option ℚ) (pv : ℚ → ℝ → ℕ → ℚ → ℝ → ℕ → ℝ) (n : ℕ) :
    ParamsC.cfg (ParamsC.forCategorical { p with trend := t }) hull pv n = ParamsC.cfg (ParamsC.forCategorical { p with trend := t' }) hull pv n ∧
    fitCatParamsC { p with trend := t } cutoff sc rank prebin solver old recs = fitCatParamsC { p with trend := t' } cutoff sc rank prebin solver old recs := by
  refine ⟨?_, rfl⟩
  have e : ∀ t : TrendArg, t ≠ .none → ParamsC.forCategorical { p with trend := t } = { p with trend := .ascending } := by
    intro t ht
    have := catC_trend (p := { p with trend := t }) ht
    unfold ParamsC.forCategorical at this ⊢
    simp only at this ⊢
    rw [this]
  rw [e t ht, e t' ht']

/-- C121: arguments outside the documented ranges make `fit` raise `ValueError`. -/
theorem C121_refused (hbad : (∀ d g t, ¬ ValidParamsC { p with minMeanDiff := .num |d|, gamma := .num |g|, timeLimit := .num |t| }) ∨
    ∃ v, cutoff = some v ∧ ¬ NumIn v fun q => 0 < q ∧ q ≤ 1) : fitCatParamsC p cutoff sc rank prebin solver old recs = .error "ValueError" := by
  unfold fitCatParamsC
  obtain ⟨-, h2, h3⟩ := C104_checks p
  rcases h3 with h3 | h3
  · rw [h3]
    rcases hbad with hbad | ⟨v, rfl, hv⟩
    · exact absurd ((h2 h3).2 0 0 0) (hbad 0 0 0)
    · have : badCutoff (some v) = true := by
        by_contra hc
        refine hv ?_
        cases v <;> simp_all [badCutoff, XQ.above, XQ.atMost, NumIn]
      simp [this]
  · rw [h3]

end OptBinning
