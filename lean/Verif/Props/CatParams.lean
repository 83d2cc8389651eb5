import Verif.Model.CatParams
import Verif.Spec.CatParams
import Verif.Props.Categorical
import Verif.Props.UserParams

/-!
# C118: arguments of `OptimalBinning` for a categorical variable
-/
namespace OptBinning
open OptBinning.Spec

variable {κ : Type} [LinearOrder κ] {p : Params} {cutoff : Option XQ} {sc : SpecialCodes κ} {rank : List (Rec κ) → List κ}
  {prebin : List (Rec ℚ) → List ℚ} {solver : Solver} {recs : List (Rec κ)} {f : CatFitted κ}

theorem ranked_eq (sc : SpecialCodes κ) (cats others : List κ) (recs : List (Rec κ)) :
    rankedRecs sc cats others recs = ((splitData sc {} recs).clean.filter fun r => !r.inCats others).map (Rec.encode cats) := by
  have hcl : (splitData sc {} recs).clean = recs.filter fun r => !r.isMissing && !r.isSpecial sc := rfl
  rw [hcl, List.filter_filter]
  unfold rankedRecs
  congr 1
  refine List.filter_congr fun r _ => ?_
  rw [Bool.eq_iff_iff]
  simp only [decide_eq_true_eq, Bool.and_eq_true, Bool.not_eq_true', Rec.isMissing, Bool.or_eq_false_iff]
  have h1 : r.isSpecial sc = false ↔ ¬ IsSpecialValue sc r.x := by
    rw [← contains_codes_iff]
    simp [Rec.isSpecial]
  have h2 : r.inCats others = false ↔ ∀ v ∈ others, r.x ≠ some v := by
    rw [Bool.eq_false_iff, Ne, inCats_iff]
    push Not
    rfl
  rw [h1, h2]
  cases hx : r.x with
  | none => simp
  | some v =>
    cases hy : r.y with
    | none => simp
    | some b =>
      simp only [ne_eq, reduceCtorEq, not_false_eq_true, true_and, Option.some.injEq, Option.isNone_some, exists_eq_left', and_true]
      constructor
      · rintro ⟨a, b⟩; exact ⟨fun w hw he => a (he ▸ hw), b⟩
      · rintro ⟨a, b⟩; exact ⟨fun hv => a v hv rfl, b⟩

/-- The bins of a fit do not depend on the rows after them. -/
theorem fitCore_first_rows {α : Type*} [LinearOrder α] {cfg : PrebinCfg} (hcat : cfg.catUser = false) {clean : List (Rec α)} {o1 o2 : Bool → Option ℕ}
    {s1 s2 : Bool → List ℕ} {m1 m2 : Bool → ℕ} {st st' : PrebinState α} {splits : List α} {f : Fitted α}
    (hsolver : ∀ nev ev : List ℕ, 0 < nev.length → (solve nev.length (solver nev ev)).2.getLast? = some true)
    (h : fitCore cfg solver clean o1 s1 m1 st splits = .ok (st', f)) :
    ∃ g, fitCore cfg solver clean o2 s2 m2 st splits = .ok (st', g) ∧ g.status = f.status ∧ g.splits = f.splits ∧
      ∀ k ≤ f.splits.length, g.nonevent.getD k 0 = f.nonevent.getD k 0 ∧ g.event.getD k 0 = f.event.getD k 0 := by
  unfold fitCore at h ⊢
  cases hpb : computePrebins cfg clean st splits with
  | error e => simp [hpb, bind, Except.bind] at h
  | ok pb =>
    simp only [hpb, bind, Except.bind, pure, Except.pure, Except.ok.injEq, Prod.mk.injEq] at h ⊢
    obtain ⟨h0, hf⟩ := h
    subst h0
    refine ⟨_, ⟨rfl, rfl⟩, by rw [← hf], by rw [← hf], ?_⟩
    obtain ⟨hsub, hcase⟩ := computePrebins_spec _ _ _ _ _ hpb
    have key : ∀ (X Y Z : List ℕ) (k : ℕ), k < X.length → (X ++ Y).getD k 0 = (X ++ Z).getD k 0 := fun X Y Z k hk => by
      rw [List.getD_append _ _ _ _ hk, List.getD_append _ _ _ _ hk]
    rcases hcase with ⟨h1, h2, h3⟩ | ⟨h1, h2, h3, -⟩
    · have hr : fitOptimizer cfg.catUser solver pb.splits pb.nonevent pb.event = ⟨"OPTIMAL", [], []⟩ := by
        simp [fitOptimizer, h1, h2]
      rw [hr] at hf ⊢
      subst hf
      intro k hk
      have : k = 0 := by simpa using hk
      subst this
      simp [binInfo, accumBins]
    · have hlen : pb.nonevent.length = pb.splits.length + 1 := by
        rw [h2, length_prebinCounts]; simp [prebinNumber, hcat]
      have hlen' : pb.event.length = pb.splits.length + 1 := by
        rw [h3, length_prebinCounts]; simp [prebinNumber, hcat]
      have hpos : 0 < pb.splits.length := List.length_pos_iff.2 h1
      have hn2 : ¬ pb.nonevent.length ≤ 1 := by omega
      have hlast := hsolver pb.nonevent pb.event (by omega)
      have hsl := solve_length pb.nonevent.length (solver pb.nonevent pb.event)
      generalize hsol : (solve pb.nonevent.length (solver pb.nonevent pb.event)) = R at hlast hsl
      have hr : fitOptimizer cfg.catUser solver pb.splits pb.nonevent pb.event =
          ⟨R.1, select pb.splits R.2.dropLast, R.2⟩ := by
        simp [fitOptimizer, hn2, hcat, hsol]
      rw [hr] at hf ⊢
      subst hf
      have hcount : R.2.count true = R.2.dropLast.count true + 1 := by
        obtain ⟨l, hl⟩ := List.getLast?_eq_some_iff.1 hlast
        rw [hl]; simp
      have hsel : (select pb.splits R.2.dropLast).length + 1 = R.2.count true := by
        rw [hcount, length_select _ _ (by simp; omega)]
      have hne : pb.splits.length ≠ 0 := by omega
      intro k hk
      have hk' : k < R.2.count true := by simp only at hk; omega
      simp only [hne, if_false, binInfo, List.append_assoc]
      exact ⟨key _ _ _ _ (by rw [accumBins_length _ _ _ (by omega)]; exact hk'), key _ _ _ _ (by rw [accumBins_length _ _ _ (by omega)]; exact hk')⟩

theorem fitCatParams_ok (h : fitCatParams p cutoff sc rank prebin solver recs = .ok f) : checkParameters p = .ok () ∧ badCutoff cutoff = false ∧
    fitCategorical { keepPure := p.divergence.keepsPure } sc (cutoff.map XQ.value) rank prebin solver recs = .ok f := by
  unfold fitCatParams at h
  split at h
  · cases h
  rename_i h1
  split_ifs at h with h2
  exact ⟨h1, by simpa using h2, h⟩

theorem clean_ranked (sc : SpecialCodes κ) (cats others : List κ) (recs : List (Rec κ)) :
    (splitData .none {} (rankedRecs sc cats others recs)).clean = rankedRecs sc cats others recs := by
  show (rankedRecs sc cats others recs).filter _ = _
  rw [List.filter_eq_self]
  intro q hq
  unfold rankedRecs at hq
  obtain ⟨r, hr, rfl⟩ := List.mem_map.1 hq
  obtain ⟨-, hr⟩ := List.mem_filter.1 hr
  simp only [decide_eq_true_eq] at hr
  obtain ⟨hy, ⟨v, hv, -⟩, -⟩ := hr
  cases hy' : r.y with
  | none => exact absurd hy' hy
  | some b => simp [Rec.isMissing, Rec.isSpecial, SpecialCodes.codes, hv, hy']

theorem checkParameters_cat (p : Params) : checkParameters p.forCategorical = checkParameters p := rfl

/-- A fit of a categorical variable is a fit of the positions of the categories in the ranking. -/
theorem cat_numerical (hsolver : ∀ nev ev : List ℕ, 0 < nev.length → (solve nev.length (solver nev ev)).2.getLast? = some true)
    (h : fitCatParams p cutoff sc rank prebin solver recs = .ok f) :
    ∃ g, fitParams p.forCategorical .none {} prebin solver (rankedRecs sc f.categories f.others recs) = .ok g ∧ g.status = f.status ∧ g.splits = f.splits ∧
      ∀ k ≤ f.splits.length, g.nonevent.getD k 0 = f.nonevent.getD k 0 ∧ g.event.getD k 0 = f.event.getD k 0 := by
  obtain ⟨h1, -, h3⟩ := fitCatParams_ok h
  obtain ⟨-, -, st', h4⟩ := fitCategorical_unpack h3
  rw [← ranked_eq] at h4
  obtain ⟨g, g1, g2, g3, g4⟩ := fitCore_first_rows (o2 := fun _ => none)
    (s2 := specialCounts .none (splitData .none {} (rankedRecs sc f.categories f.others recs)).special)
    (m2 := fun event => truncWeight ((splitData .none {} (rankedRecs sc f.categories f.others recs)).missing.filter fun q => q.isEvent == event)) rfl hsolver h4
  refine ⟨g, ?_, g2, g3, g4⟩
  unfold fitParams
  rw [checkParameters_cat, h1]
  unfold fitNumerical fitFrom
  simp only [bind, Except.bind, pure, Except.pure, clean_ranked]
  have hk : p.forCategorical.divergence = p.divergence := rfl
  rw [hk, g1]

/-- C118: a fit which succeeds had valid arguments. -/
theorem C118_accepted (h : fitCatParams p cutoff sc rank prebin solver recs = .ok f) : checkParameters p = .ok () ∧
    ∀ v, cutoff = some v → NumIn v fun q => 0 < q ∧ q ≤ 1 := by
  obtain ⟨h1, h2, -⟩ := fitCatParams_ok h
  refine ⟨h1, ?_⟩
  rintro v rfl
  cases v <;> simp_all [badCutoff, XQ.above, XQ.atMost, NumIn]

/-- C118: each limit given to the constructor holds for the bins of a categorical variable (the rows before "others"). -/
theorem C118_limits (hull : List ℚ → Option ℚ) (stale : Bool) (pv : ℕ → ℕ → ℕ → ℕ → ℝ) (h : fitCatParams p cutoff sc rank prebin solver recs = .ok f)
    (hr : Respects (p.forCategorical.cfg hull stale pv recs.length) solver) (hne : f.splits ≠ []) :
    TableWithin p recs.length (f.splits.length + 1) f.nonevent f.event := by
  obtain ⟨g, g1, -, g3, g4⟩ := cat_numerical (fun nev ev hn => hr.last nev ev hn) h
  obtain ⟨a, b, c⟩ := limits_of_size p.forCategorical hull stale pv .none {} prebin solver _ g hr g1 (by rw [g3]; exact hne)
  rw [g3] at a b c
  have c' := fun k (hk : k < f.splits.length + 1) => c k (by omega) (f.nonevent.getD k 0) (f.event.getD k 0) (g4 k (by omega)).1 (g4 k (by omega)).2
  refine ⟨fun m hm => by push_cast; exact a m hm, fun m hm => by push_cast; exact b m hm, fun k hk => (c' k hk).1, fun k hk => (c' k hk).2.1,
    fun k hk => (c' k hk).2.2.1, fun k hk => (c' k hk).2.2.2.1, fun k hk => (c' k hk).2.2.2.2.1, fun k hk => (c' k hk).2.2.2.2.2.1,
    fun k hk => (c' k hk).2.2.2.2.2.2⟩

theorem rateOfRow_congr {a b c d : List ℕ} {k : ℕ} (h1 : a.getD k 0 = c.getD k 0) (h2 : b.getD k 0 = d.getD k 0) : rateOfRow a b k = rateOfRow c d k := by
  unfold rateOfRow
  rw [h1, h2]

theorem cat_trend (h : p.trend ≠ .none) : p.forCategorical.trend = .ascending := by
  unfold Params.forCategorical TrendArg.categorical
  cases hp : p.trend <;> simp_all

/-- C118: with any `monotonic_trend` except None the event rates of the bins ascend, `solver="mip"`. -/
theorem C118_trend_mip (hull : List ℚ → Option ℚ) (stale : Bool) (pv : ℕ → ℕ → ℕ → ℕ → ℝ) (reg : ℝ) (h : fitCatParams p cutoff sc rank prebin solver recs = .ok f)
    (hr : RespectsMIP (p.forCategorical.cfg hull stale pv recs.length) reg solver) (ht : p.trend ≠ .none) (k k' : ℕ) (hkk : k < k') (hk' : k' ≤ f.splits.length) :
    rateOfRow f.nonevent f.event k ≤ rateOfRow f.nonevent f.event k' := by
  obtain ⟨g, g1, -, g3, g4⟩ := cat_numerical (fun nev ev hn => Respects.last (Or.inr ⟨reg, hr⟩) nev ev hn) h
  have := (trend_mip_of_size p.forCategorical hull stale pv .none {} prebin solver _ g reg hr g1).1 (cat_trend ht) k k' hkk (by rw [g3]; exact hk')
  rwa [rateOfRow_congr (g4 k (by omega)).1 (g4 k (by omega)).2, rateOfRow_congr (g4 k' (by omega)).1 (g4 k' (by omega)).2] at this

/-- C118: the same with `solver="cp"`, up to 1e-6. -/
theorem C118_trend_cp (hull : List ℚ → Option ℚ) (stale : Bool) (pv : ℕ → ℕ → ℕ → ℕ → ℝ) (reg : ℤ) (h : fitCatParams p cutoff sc rank prebin solver recs = .ok f)
    (hr : RespectsCP (p.forCategorical.cfg hull stale pv recs.length) reg solver) (ht : p.trend ≠ .none) (k k' : ℕ) (hkk : k < k') (hk' : k' ≤ f.splits.length) :
    rateOfRow f.nonevent f.event k < rateOfRow f.nonevent f.event k' + 1 / 1000000 := by
  obtain ⟨g, g1, -, g3, g4⟩ := cat_numerical (fun nev ev hn => Respects.last (Or.inl ⟨reg, hr⟩) nev ev hn) h
  have := (trend_cp_of_size p.forCategorical hull stale pv .none {} prebin solver _ g reg hr g1).1 (cat_trend ht) k k' hkk (by rw [g3]; exact hk')
  rwa [rateOfRow_congr (g4 k (by omega)).1 (g4 k (by omega)).2, rateOfRow_congr (g4 k' (by omega)).1 (g4 k' (by omega)).2] at this

/-- C118: `min_event_rate_diff` (`solver="mip"`). -/
theorem C118_min_diff_mip (hull : List ℚ → Option ℚ) (stale : Bool) (pv : ℕ → ℕ → ℕ → ℕ → ℝ) (reg : ℝ) (h : fitCatParams p cutoff sc rank prebin solver recs = .ok f)
    (hr : RespectsMIP (p.forCategorical.cfg hull stale pv recs.length) reg solver) (v : ℚ) (hv : p.minRateDiff = .num v) (k : ℕ) (hk : k + 1 ≤ f.splits.length) :
    v ≤ |rateOfRow f.nonevent f.event k - rateOfRow f.nonevent f.event (k + 1)| := by
  obtain ⟨g, g1, -, g3, g4⟩ := cat_numerical (fun nev ev hn => Respects.last (Or.inr ⟨reg, hr⟩) nev ev hn) h
  have := min_diff_mip_of_size p.forCategorical hull stale pv .none {} prebin solver _ g reg hr g1 v hv k (by rw [g3]; exact hk)
  rwa [rateOfRow_congr (g4 k (by omega)).1 (g4 k (by omega)).2, rateOfRow_congr (g4 (k + 1) hk).1 (g4 (k + 1) hk).2] at this

/-- C118: the same with `solver="cp"`, up to 2e-6. -/
theorem C118_min_diff_cp (hull : List ℚ → Option ℚ) (stale : Bool) (pv : ℕ → ℕ → ℕ → ℕ → ℝ) (reg : ℤ) (h : fitCatParams p cutoff sc rank prebin solver recs = .ok f)
    (hr : RespectsCP (p.forCategorical.cfg hull stale pv recs.length) reg solver) (v : ℚ) (hv : p.minRateDiff = .num v) (k : ℕ) (hk : k + 1 ≤ f.splits.length) :
    v - 2 / 1000000 < |rateOfRow f.nonevent f.event k - rateOfRow f.nonevent f.event (k + 1)| := by
  obtain ⟨g, g1, -, g3, g4⟩ := cat_numerical (fun nev ev hn => Respects.last (Or.inl ⟨reg, hr⟩) nev ev hn) h
  have := min_diff_cp_of_size p.forCategorical hull stale pv .none {} prebin solver _ g reg hr g1 v hv k (by rw [g3]; exact hk)
  rwa [rateOfRow_congr (g4 k (by omega)).1 (g4 k (by omega)).2, rateOfRow_congr (g4 (k + 1) hk).1 (g4 (k + 1) hk).2] at this

/-- C118: `max_pvalue`. -/
theorem C118_pvalues (hull : List ℚ → Option ℚ) (stale : Bool) (pv : ℕ → ℕ → ℕ → ℕ → ℝ) (h : fitCatParams p cutoff sc rank prebin solver recs = .ok f)
    (hr : Respects (p.forCategorical.cfg hull stale pv recs.length) solver) (v : ℚ) (hv : p.maxPvalue = some (.num v)) (k k' : ℕ) (hkk : k < k')
    (hk' : k' ≤ f.splits.length) (hpol : p.policy = .consecutive → k' = k + 1) :
    pv (f.event.getD k 0) (f.nonevent.getD k 0) (f.event.getD k' 0) (f.nonevent.getD k' 0) ≤ (v : ℝ) := by
  obtain ⟨g, g1, -, g3, g4⟩ := cat_numerical (fun nev ev hn => hr.last nev ev hn) h
  have := pvalues_of_size p.forCategorical hull stale pv .none {} prebin solver _ g hr g1 v hv k k' hkk (by rw [g3]; exact hk') hpol
  rwa [(g4 k (by omega)).1, (g4 k (by omega)).2, (g4 k' hk').1, (g4 k' hk').2] at this

theorem whole_ranked (hw : WholeWeights recs) (cats others : List κ) : WholeWeights (rankedRecs sc cats others recs) := by
  intro q hq
  obtain ⟨r, hr, rfl⟩ := List.mem_map.1 hq
  exact hw r (List.mem_filter.1 hr).1

theorem any_cat (hp : p.trend = .none ∨ p.minRateDiff ≠ .num 0) : AnyLimits p.forCategorical := by
  by_cases ht : p.trend = .none
  · refine Or.inl (Or.inl ?_)
    simp [Params.forCategorical, TrendArg.categorical, ht]
  · exact Or.inr ⟨Or.inl (cat_trend ht), by rcases hp with h | h; exacts [absurd h ht, h]⟩

theorem meet_cat {pv : ℕ → ℕ → ℕ → ℕ → ℝ} {n : ℕ} {slack : ℚ} {rs : List (Rec ℚ)} {cs : List ℚ} (h : CutsMeet { p with trend := .none } pv n slack rs cs)
    (ha : p.trend ≠ .none → CutsAscending rs cs) : CutsMeet p.forCategorical pv n slack rs cs := by
  have hno : ∀ t : TrendArg, t ≠ .none → t ≠ .ascending → p.forCategorical.trend ≠ t := by
    intro t h1 h2 he
    by_cases ht : p.trend = .none
    · exact h1 (by rw [← he]; simp [Params.forCategorical, TrendArg.categorical, ht])
    · exact h2 (by rw [← he, cat_trend ht])
  refine ⟨h.minBins, h.maxBins, h.minSize, h.maxSize, h.minNonevent, h.maxNonevent, h.minEvent, h.maxEvent, fun he => ha ?_,
    fun he => absurd he (hno _ (by simp) (by simp)), fun he => absurd he (hno _ (by simp) (by simp)), fun he => absurd he (hno _ (by simp) (by simp)), h.minDiff, h.pvalue⟩
  intro hn
  simp [Params.forCategorical, TrendArg.categorical, hn] at he

/-- C118: the splits found are optimal among the selections of the pre-splits `ps` of the ranking which meet the limits (`solver="mip"`). -/
theorem C118_optimal_mip (hull : List ℚ → Option ℚ) (stale : Bool) (pv : ℕ → ℕ → ℕ → ℕ → ℝ) (reg : ℝ)
    (hw : WholeWeights recs) (hsort : ∀ l, (prebin l).Pairwise (· ≤ ·)) (hd : p.divergence = .iv ∨ p.divergence = .js) (hg : p.gamma = .num 0)
    (hp : p.trend = .none ∨ p.minRateDiff ≠ .num 0) (h : fitCatParams p cutoff sc rank prebin solver recs = .ok f)
    (hr : RespectsMIP (p.forCategorical.cfg hull stale pv recs.length) reg solver) (hs : f.status = "OPTIMAL") :
    ∃ ps : List ℚ, f.splits.Sublist ps ∧ ps.Sublist (prebin (rankedRecs sc f.categories f.others recs)) ∧
      (CutsMixed (rankedRecs sc f.categories f.others recs) (prebin (rankedRecs sc f.categories f.others recs)) →
        ps = prebin (rankedRecs sc f.categories f.others recs)) ∧
      ∀ cs : List ℚ, cs.Sublist ps → CutsMeet { p with trend := .none } pv recs.length 0 (rankedRecs sc f.categories f.others recs) cs →
        (p.trend ≠ .none → CutsAscending (rankedRecs sc f.categories f.others recs) cs) →
        cutDivergence p.divergence.fn (rankedRecs sc f.categories f.others recs) cs ≤
          cutDivergence p.divergence.fn (rankedRecs sc f.categories f.others recs) f.splits := by
  obtain ⟨g, g1, g2, g3, -⟩ := cat_numerical (fun nev ev hn => Respects.last (Or.inr ⟨reg, hr⟩) nev ev hn) h
  obtain ⟨ps, a, b, c, d⟩ := cut_limits_mip_of_size p.forCategorical hull stale pv .none {} prebin solver _ g reg (whole_ranked hw _ _) hsort hd hg
    (any_cat hp) hr g1 (g2.trans hs)
  rw [clean_ranked] at b c d
  rw [g3] at a d
  exact ⟨ps, a, b, c, fun cs hcs hm ha => d cs hcs (meet_cat hm ha)⟩

/-- C118: the same with `solver="cp"`, up to one millionth per bin. -/
theorem C118_optimal_cp (hull : List ℚ → Option ℚ) (stale : Bool) (pv : ℕ → ℕ → ℕ → ℕ → ℝ) (reg : ℤ)
    (hw : WholeWeights recs) (hsort : ∀ l, (prebin l).Pairwise (· ≤ ·)) (hd : p.divergence = .iv ∨ p.divergence = .js) (hg : p.gamma = .num 0)
    (hp : p.trend = .none ∨ p.minRateDiff ≠ .num 0) (h : fitCatParams p cutoff sc rank prebin solver recs = .ok f)
    (hr : RespectsCP (p.forCategorical.cfg hull stale pv recs.length) reg solver) (hs : f.status = "OPTIMAL") :
    ∃ ps : List ℚ, f.splits.Sublist ps ∧ ps.Sublist (prebin (rankedRecs sc f.categories f.others recs)) ∧
      (CutsMixed (rankedRecs sc f.categories f.others recs) (prebin (rankedRecs sc f.categories f.others recs)) →
        ps = prebin (rankedRecs sc f.categories f.others recs)) ∧
      ∀ cs : List ℚ, cs.Sublist ps → CutsMeet { p with trend := .none } pv recs.length (1 / 1000000) (rankedRecs sc f.categories f.others recs) cs →
        (p.trend ≠ .none → CutsAscending (rankedRecs sc f.categories f.others recs) cs) →
        cutDivergence p.divergence.fn (rankedRecs sc f.categories f.others recs) cs ≤
          cutDivergence p.divergence.fn (rankedRecs sc f.categories f.others recs) f.splits + ((cs.length : ℝ) + 1) / 1000000 := by
  obtain ⟨g, g1, g2, g3, -⟩ := cat_numerical (fun nev ev hn => Respects.last (Or.inl ⟨reg, hr⟩) nev ev hn) h
  obtain ⟨ps, a, b, c, d⟩ := cut_limits_cp_of_size p.forCategorical hull stale pv .none {} prebin solver _ g reg (whole_ranked hw _ _) hsort hd hg
    (any_cat hp) hr g1 (g2.trans hs)
  rw [clean_ranked] at b c d
  rw [g3] at a d
  exact ⟨ps, a, b, c, fun cs hcs hm ha => d cs hcs (meet_cat hm ha)⟩

/-- C118: with a trend (any but None, treated as ascending) and no limit except `max_n_bins` the splits are optimal, `solver="mip"`. -/
theorem C118_ascending_mip (hull : List ℚ → Option ℚ) (stale : Bool) (pv : ℕ → ℕ → ℕ → ℕ → ℝ) (reg : ℝ)
    (hw : WholeWeights recs) (hsort : ∀ l, (prebin l).Pairwise (· ≤ ·)) (hd : p.divergence = .iv ∨ p.divergence = .js) (hg : p.gamma = .num 0)
    (ht : p.trend ≠ .none) (hp : OnlyTrend { p with trend := .ascending }) (h : fitCatParams p cutoff sc rank prebin solver recs = .ok f)
    (hr : RespectsMIP (p.forCategorical.cfg hull stale pv recs.length) reg solver) (hs : f.status = "OPTIMAL") :
    ∃ ps : List ℚ, f.splits.Sublist ps ∧ ps.Sublist (prebin (rankedRecs sc f.categories f.others recs)) ∧
      (CutsMixed (rankedRecs sc f.categories f.others recs) (prebin (rankedRecs sc f.categories f.others recs)) →
        ps = prebin (rankedRecs sc f.categories f.others recs)) ∧
      ∀ cs : List ℚ, cs.Sublist ps → CutsAscending (rankedRecs sc f.categories f.others recs) cs → AtMost p.maxBins (cs.length + 1) →
        cutDivergence p.divergence.fn (rankedRecs sc f.categories f.others recs) cs ≤
          cutDivergence p.divergence.fn (rankedRecs sc f.categories f.others recs) f.splits := by
  obtain ⟨g, g1, g2, g3, -⟩ := cat_numerical (fun nev ev hn => Respects.last (Or.inr ⟨reg, hr⟩) nev ev hn) h
  have hp' : OnlyTrend p.forCategorical := by
    have : p.forCategorical = { p with trend := .ascending } := by
      have := cat_trend ht
      unfold Params.forCategorical at this ⊢
      simp only at this
      rw [this]
    rw [this]; exact hp
  obtain ⟨ps, a, b, c, d⟩ := cut_monotone_mip_of_size p.forCategorical hull stale pv .none {} prebin solver _ g reg (whole_ranked hw _ _) hsort hd hg
    hp' hr g1 (g2.trans hs)
  rw [clean_ranked] at b c d
  rw [g3] at a d
  exact ⟨ps, a, b, c, fun cs hcs ha hm => d cs hcs (fun _ => ha) (fun he => by rw [cat_trend ht] at he; cases he) hm⟩

/-- C118: the groups of categories: the splits cut the ranking into consecutive pieces, and bin `k` holds the categories of piece `k`. -/
theorem C118_bins (hull : List ℚ → Option ℚ) (stale : Bool) (pv : ℕ → ℕ → ℕ → ℕ → ℝ) (hrank : ∀ l, IsRanking l (rank l))
    (hsort : ∀ l, (prebin l).Pairwise (· ≤ ·)) (h : fitCatParams p cutoff sc rank prebin solver recs = .ok f)
    (hr : Respects (p.forCategorical.cfg hull stale pv recs.length) solver) (v : κ) (k : ℕ) (hk : k ≤ f.splits.length) :
    v ∈ f.bins.getD k [] ↔ v ∈ f.categories ∧ InInterval f.splits k ((f.categories.idxOf v : ℕ) : ℚ) := by
  obtain ⟨hn, -, -⟩ := fit_categories hrank (fitCatParams_ok h).2.2
  obtain ⟨g, g1, -, g3, -⟩ := cat_numerical (fun nev ev hn => hr.last nev ev hn) h
  have hs : f.splits.Pairwise (· ≤ ·) := by
    have := fit_splits_sublist (fitParams_fit g1)
    rw [g3] at this
    exact (hsort _).sublist this
  rw [mem_bins hn, ← inInterval_iff hs]
  constructor
  · rintro (⟨-, a, b⟩ | ⟨a, -⟩)
    · exact ⟨a, b⟩
    · omega
  · rintro ⟨a, b⟩
    exact Or.inl ⟨hk, a, b⟩

/-- C118, finding: `monotonic_trend="descending"` is accepted for a categorical variable and has the same effect as "ascending". -/
theorem C118_descending (t t' : TrendArg) (ht : t ≠ .none) (hu : checkParameters { p with trend := t } = .ok ()) (ht' : t' ≠ .none)
    (hu' : checkParameters { p with trend := t' } = .ok ()) (hull : List ℚ → Option ℚ) (stale : Bool) (pv : ℕ → ℕ → ℕ → ℕ → ℝ) (n : ℕ) :
    Params.cfg (Params.forCategorical { p with trend := t }) hull stale pv n = Params.cfg (Params.forCategorical { p with trend := t' }) hull stale pv n ∧
    fitCatParams { p with trend := t } cutoff sc rank prebin solver recs = fitCatParams { p with trend := t' } cutoff sc rank prebin solver recs := by
  constructor
  · have e : ∀ t : TrendArg, t ≠ .none → Params.forCategorical { p with trend := t } = { p with trend := .ascending } := by
      intro t ht
      have := cat_trend (p := { p with trend := t }) ht
      unfold Params.forCategorical at this ⊢
      simp only at this ⊢
      rw [this]
    rw [e t ht, e t' ht']
  · unfold fitCatParams
    rw [hu, hu']

/-- The five records with the values as categories: category 0 has the event rate 1/3, category 1 has 1/2. -/
theorem fiveCatFit (hull : List ℚ → Option ℚ) (pv : ℕ → ℕ → ℕ → ℕ → ℝ) :
    ∃ solver, Respects (fiveParams.forCategorical.cfg hull false pv fiveRecs.length) solver ∧ ∃ f : CatFitted ℕ,
      fitCatParams fiveParams none .none rankImpl (fun _ => [1]) solver fiveRecs = .ok f ∧ f.splits = [1] ∧ f.bins = [[0], [1]] ∧
      TableWithin fiveParams 5 2 f.nonevent f.event := by
  obtain ⟨c, hc, hr, hsol⟩ := fiveSolve hull pv
  have hc' : c = fiveParams.forCategorical.cfg hull false pv fiveRecs.length := hc
  have hcl : (splitData .none {} fiveRecs).clean = fiveRecs := by decide +kernel
  have hco : cutoffOthers none fiveRecs = .ok [] := rfl
  have hrk : rankImpl (fiveRecs.filter fun r => !r.inCats []) = [0, 1] := by decide +kernel
  have h1 : prebinCounts false 2 [(1 : ℚ)] ((fiveRecs.filter fun r => !r.inCats []).map (Rec.encode [0, 1])) false = [2, 1] := by decide +kernel
  have h2 : prebinCounts false 2 [(1 : ℚ)] ((fiveRecs.filter fun r => !r.inCats []).map (Rec.encode [0, 1])) true = [1, 1] := by decide +kernel
  have h0 : computePrebins {} ((fiveRecs.filter fun r => !r.inCats []).map (Rec.encode [0, 1])) {} [(1 : ℚ)] = .ok ⟨{}, [1], [2, 1], [1, 1]⟩ := by
    rw [computePrebins]
    simp [prebinNumber, h1, h2, pureMask]
  have hs : ∀ e, specialCounts .none (splitData .none {} fiveRecs).special e = [0] := by decide +kernel
  have hm : ∀ e, truncWeight ((splitData .none {} fiveRecs).missing.filter fun q => q.isEvent == e) = 0 := by decide +kernel
  have hfo : fitOptimizer false (keepAll c) [(1 : ℚ)] [2, 1] [1, 1] = ⟨"FEASIBLE", [1], [true, true]⟩ := by
    have : ([2, 1] : List ℕ).length = 2 := rfl
    rw [fitOptimizer, this, hsol]; rfl
  have hfit : fitCatParams fiveParams none .none rankImpl (fun _ => [1]) (keepAll c) fiveRecs = .ok ⟨"FEASIBLE", [1], [0, 1], [], [2, 1, 0, 0], [1, 1, 0, 0]⟩ := by
    unfold fitCatParams
    rw [fiveAccepted]
    have hk : fiveParams.divergence.keepsPure = false := rfl
    simp only [badCutoff, Option.any_none, Bool.false_eq_true, if_false, Option.map_none, hk, fitCategorical, hcl, hco, hrk, fitCore, h0, bind, Except.bind, pure,
      Except.pure, hs, hm, hfo]
    rfl
  exact ⟨keepAll c, hc' ▸ hr, _, hfit, rfl, by decide +kernel, C118_limits hull false pv hfit (hc' ▸ hr) (by simp)⟩

end OptBinning
