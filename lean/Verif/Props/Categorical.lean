import Verif.Lemmas.Categorical
import Verif.Props.Fit

/-!
# Categorical variables: C31, C32 and the categorical versions of C02, C03

`fitCategorical` models `OptimalBinning(dtype="categorical").fit` without user splits, `CatFitted.bins` the property
`splits` (the list of groups of categories).
-/
set_option linter.unusedSectionVars false
set_option linter.unusedSimpArgs false

namespace OptBinning
open Spec Finset

variable {κ : Type} [LinearOrder κ]

theorem fitCategorical_unpack {cfg : PrebinCfg} {sc : SpecialCodes κ} {cutoff : Option ℚ} {rank : List (Rec κ) → List κ}
    {prebin : List (Rec ℚ) → List ℚ} {solver : Solver} {recs : List (Rec κ)} {f : CatFitted κ}
    (h : fitCategorical cfg sc cutoff rank prebin solver recs = .ok f) :
    cutoffOthers cutoff (splitData sc {} recs).clean = .ok f.others ∧
    f.categories = rank ((splitData sc {} recs).clean.filter fun r => !r.inCats f.others) ∧
    ∃ st', fitCore { cfg with catUser := false } solver
      (((splitData sc {} recs).clean.filter fun r => !r.inCats f.others).map (Rec.encode f.categories))
      (fun event => if f.others.length = 0 then none else
        some (truncWeight (((splitData sc {} recs).clean.filter fun r => r.inCats f.others).filter
          fun q => q.isEvent == event)))
      (specialCounts sc (splitData sc {} recs).special)
      (fun event => truncWeight ((splitData sc {} recs).missing.filter fun q => q.isEvent == event)) {}
      (prebin (((splitData sc {} recs).clean.filter fun r => !r.inCats f.others).map (Rec.encode f.categories))) =
      .ok (st', ⟨f.status, f.splits, f.nonevent, f.event⟩) := by
  unfold fitCategorical at h
  cases ho : cutoffOthers cutoff (splitData sc {} recs).clean with
  | error e => simp [ho, bind, Except.bind] at h
  | ok others =>
    simp only [ho, bind, Except.bind] at h
    cases hc : fitCore { cfg with catUser := false } solver
      (((splitData sc {} recs).clean.filter fun r => !r.inCats others).map
        (Rec.encode (rank ((splitData sc {} recs).clean.filter fun r => !r.inCats others))))
      (fun event => if others.length = 0 then none else
        some (truncWeight (((splitData sc {} recs).clean.filter fun r => r.inCats others).filter
          fun q => q.isEvent == event)))
      (specialCounts sc (splitData sc {} recs).special)
      (fun event => truncWeight ((splitData sc {} recs).missing.filter fun q => q.isEvent == event)) {}
      (prebin (((splitData sc {} recs).clean.filter fun r => !r.inCats others).map
        (Rec.encode (rank ((splitData sc {} recs).clean.filter fun r => !r.inCats others))))) with
    | error e => rw [hc] at h; simp at h
    | ok r =>
      rw [hc] at h
      simp only [pure, Except.pure, Except.ok.injEq] at h
      subst h
      exact ⟨rfl, rfl, r.1, hc⟩

theorem mem_bins {f : CatFitted κ} (hn : f.categories.Nodup) (v : κ) (k : ℕ) :
    v ∈ f.bins.getD k [] ↔
      (k ≤ f.splits.length ∧ v ∈ f.categories ∧
        digitize false f.splits (some ((f.categories.idxOf v : ℕ) : ℚ)) = k) ∨
      (k = f.splits.length + 1 ∧ v ∈ f.others) := by
  have hl := length_groupCodes false (f.splits.length + 1) (f.splits.map Int.ceil) f.categories
  unfold CatFitted.bins
  rcases Nat.lt_or_ge k (f.splits.length + 1) with hk | hk
  · rw [List.getD_append _ _ _ _ (by rw [hl]; exact hk), mem_groupCodes _ _ _ hn, digitize_ceil]
    constructor
    · rintro ⟨h1, h2, h3⟩; exact Or.inl ⟨by omega, h2, h3⟩
    · rintro (⟨h1, h2, h3⟩ | ⟨h1, -⟩)
      · exact ⟨hk, h2, h3⟩
      · omega
  · rw [List.getD_append_right _ _ _ _ (by rw [hl]; exact hk), hl]
    constructor
    · intro h
      right
      split_ifs at h with h0
      · simp at h
      · rcases Nat.eq_or_lt_of_le hk with h1 | h1
        · rw [← h1] at h; simp at h; exact ⟨h1.symm, h⟩
        · obtain ⟨m, hm⟩ := Nat.exists_eq_succ_of_ne_zero (show k - (f.splits.length + 1) ≠ 0 by omega)
          rw [hm] at h; simp at h
    · rintro (⟨h1, -⟩ | ⟨rfl, h1⟩)
      · omega
      · have h0 : ¬ f.others.length = 0 := by
          intro h; rw [List.length_eq_zero_iff.1 h] at h1; simp at h1
        simp [h0, h1]

/-- The categories of a fit: regular ones and those moved to "others". -/
theorem fit_categories {cfg : PrebinCfg} {sc : SpecialCodes κ} {cutoff : Option ℚ} {rank : List (Rec κ) → List κ}
    {prebin : List (Rec ℚ) → List ℚ} {solver : Solver} {recs : List (Rec κ)} {f : CatFitted κ}
    (hrank : ∀ l, IsRanking l (rank l))
    (h : fitCategorical cfg sc cutoff rank prebin solver recs = .ok f) :
    f.categories.Nodup ∧ (∀ v, v ∈ f.categories ↔ IsTrainCategory sc recs v ∧ v ∉ f.others) ∧
    (∀ v ∈ f.others, IsTrainCategory sc recs v) := by
  obtain ⟨ho, hc, -⟩ := fitCategorical_unpack h
  have hclean : ∀ v, (∃ r ∈ (splitData sc {} recs).clean, r.x = some v) ↔ IsTrainCategory sc recs v := by
    intro v
    constructor
    · rintro ⟨r, hr, hx⟩
      obtain ⟨h1, h2, h3, h4⟩ := (C01_groups sc recs r).1.1 hr
      exact ⟨hx ▸ h4, r, h1, hx, h3⟩
    · rintro ⟨h4, r, h1, hx, h3⟩
      exact ⟨r, (C01_groups sc recs r).1.2 ⟨h1, by simp [hx], h3, hx ▸ h4⟩, hx⟩
  have hr := hrank ((splitData sc {} recs).clean.filter fun r => !r.inCats f.others)
  rw [← hc] at hr
  refine ⟨hr.nodup, fun v => ?_, fun v hv => (hclean v).1 (((cutoffOthers_mem ho).2 v).1 hv).1⟩
  rw [hr.mem, ← hclean]
  simp only [List.mem_filter, Bool.not_eq_true', Bool.eq_false_iff, ne_eq, inCats_iff]
  constructor
  · rintro ⟨r, ⟨h1, h2⟩, h3⟩
    exact ⟨⟨r, h1, h3⟩, fun hv => h2 ⟨v, hv, h3⟩⟩
  · rintro ⟨⟨r, h1, h3⟩, h2⟩
    refine ⟨r, ⟨h1, ?_⟩, h3⟩
    rintro ⟨w, hw, hx⟩
    rw [h3] at hx
    cases hx
    exact h2 hw

theorem bins_length (f : CatFitted κ) :
    f.bins.length = f.splits.length + 1 + if f.others.length = 0 then 0 else 1 := by
  unfold CatFitted.bins
  rw [List.length_append, length_groupCodes]
  split_ifs <;> rfl

/-- The bin of a category: total and unique. -/
theorem bin_unique {f : CatFitted κ} (hn : f.categories.Nodup) (hd : ∀ v ∈ f.categories, v ∉ f.others) (v : κ)
    (hv : v ∈ f.categories ∨ v ∈ f.others) :
    ∃ k < f.bins.length, v ∈ f.bins.getD k [] ∧ ∀ j, v ∈ f.bins.getD j [] → j = k := by
  rcases hv with hv | hv
  · have := digitize_le false f.splits (some ((f.categories.idxOf v : ℕ) : ℚ))
    refine ⟨digitize false f.splits (some ((f.categories.idxOf v : ℕ) : ℚ)), by rw [bins_length]; omega, ?_, ?_⟩
    · exact (mem_bins hn _ _).2 (Or.inl ⟨this, hv, rfl⟩)
    · intro j hj
      rcases (mem_bins hn _ _).1 hj with ⟨-, -, h⟩ | ⟨-, h⟩
      · exact h.symm
      · exact absurd h (hd v hv)
  · have h0 : ¬ f.others.length = 0 := by
      intro h; rw [List.length_eq_zero_iff.1 h] at hv; simp at hv
    refine ⟨f.splits.length + 1, by rw [bins_length]; simp [h0], (mem_bins hn _ _).2 (Or.inr ⟨rfl, hv⟩), ?_⟩
    intro j hj
    rcases (mem_bins hn _ _).1 hj with ⟨-, h, -⟩ | ⟨h, -⟩
    · exact absurd hv (hd v h)
    · exact h

/-- C31: the groups of `splits` partition the training categories: every category seen in training (with known target,
not a special code) is in exactly one group, and nothing else is in a group. -/
theorem C31_partition {cfg : PrebinCfg} {sc : SpecialCodes κ} {cutoff : Option ℚ} {rank : List (Rec κ) → List κ}
    {prebin : List (Rec ℚ) → List ℚ} {solver : Solver} {recs : List (Rec κ)} {f : CatFitted κ}
    (hrank : ∀ l, IsRanking l (rank l))
    (h : fitCategorical cfg sc cutoff rank prebin solver recs = .ok f) :
    Partitions f.bins (IsTrainCategory sc recs) := by
  obtain ⟨hn, hm, ho⟩ := fit_categories hrank h
  constructor
  · intro v hv
    obtain ⟨k, h1, h2, h3⟩ := bin_unique hn (fun v hv => ((hm v).1 hv).2) v
      (by by_cases hvo : v ∈ f.others
          · exact Or.inr hvo
          · exact Or.inl ((hm v).2 ⟨hv, hvo⟩))
    exact ⟨k, ⟨h1, h2⟩, fun j hj => h3 j hj.2⟩
  · intro v hv b hb hvb
    obtain ⟨k, hk, rfl⟩ := List.mem_iff_getElem.1 hb
    have : v ∈ f.bins.getD k [] := by simpa [List.getD, hk] using hvb
    rcases (mem_bins hn _ _).1 this with ⟨-, h, -⟩ | ⟨-, h⟩
    · exact hv ((hm v).1 h).1
    · exact hv (ho v h)

/-- Rates of the remaining categories are the rates over the whole training data. -/
theorem catRate_main {sc : SpecialCodes κ} {recs : List (Rec κ)} (hk : KnownTargets recs) (others : List κ) {v : κ}
    (hv : IsTrainCategory sc recs v) (hvo : v ∉ others) :
    catRate ((splitData sc {} recs).clean.filter fun r => !r.inCats others) v = catRate recs v := by
  have hcl : (splitData sc {} recs).clean = recs.filter fun r => !r.isMissing && !r.isSpecial sc := rfl
  have key : ∀ r ∈ recs, r.x = some v → (!r.isMissing && !r.isSpecial sc) = true ∧ (!r.inCats others) = true := by
    intro r hr hx
    have h1 : r.isMissing = false := by
      have := hk r hr
      cases hy : r.y with
      | none => exact absurd hy this
      | some b => simp [Rec.isMissing, hx, hy]
    have h2 : r.isSpecial sc = false := by
      rw [Bool.eq_false_iff]
      intro hs
      exact hv.1 (hx ▸ (contains_codes_iff _ _).1 hs)
    have h3 : r.inCats others = false := by
      rw [Bool.eq_false_iff, ne_eq, inCats_iff]
      rintro ⟨w, hw, hxw⟩
      rw [hx] at hxw; cases hxw
      exact hvo hw
    simp [h1, h2, h3]
  have e1 : catEvents ((splitData sc {} recs).clean.filter fun r => !r.inCats others) v = catEvents recs v := by
    unfold catEvents
    rw [hcl, List.countP_filter, List.countP_filter]
    refine List.countP_congr fun r hr => ?_
    simp only [Bool.and_eq_true, decide_eq_true_eq]
    constructor
    · exact fun h => h.1.1
    · intro h
      have := key r hr h.1
      exact ⟨⟨h, this.2⟩, by simpa using this.1⟩
  have e2 : catCount ((splitData sc {} recs).clean.filter fun r => !r.inCats others) v = catCount recs v := by
    unfold catCount
    rw [hcl, List.countP_filter, List.countP_filter]
    refine List.countP_congr fun r hr => ?_
    simp only [Bool.and_eq_true, decide_eq_true_eq]
    constructor
    · exact fun h => h.1.1
    · intro h
      have := key r hr h
      exact ⟨⟨h, this.2⟩, by simpa using this.1⟩
  rw [catRate, catRate, e1, e2]

/-- C31: the regular groups are ordered by event rate: a category of an earlier group has at most the event rate of a
category of a later one. -/
theorem C31_ordered_by_event_rate {cfg : PrebinCfg} {sc : SpecialCodes κ} {cutoff : Option ℚ}
    {rank : List (Rec κ) → List κ} {prebin : List (Rec ℚ) → List ℚ} {solver : Solver} {recs : List (Rec κ)}
    {f : CatFitted κ} (hrank : ∀ l, IsRanking l (rank l)) (hk : KnownTargets recs)
    (h : fitCategorical cfg sc cutoff rank prebin solver recs = .ok f) {i j : ℕ} (hij : i < j)
    (hj : j ≤ f.splits.length) {a b : κ} (ha : a ∈ f.bins.getD i []) (hb : b ∈ f.bins.getD j []) :
    catRate recs a ≤ catRate recs b := by
  obtain ⟨hn, hm, ho⟩ := fit_categories hrank h
  obtain ⟨-, hc, -⟩ := fitCategorical_unpack h
  rcases (mem_bins hn _ _).1 ha with ⟨-, ha1, ha2⟩ | ⟨ha1, -⟩
  swap
  · omega
  rcases (mem_bins hn _ _).1 hb with ⟨-, hb1, hb2⟩ | ⟨hb1, -⟩
  swap
  · omega
  have hlt : f.categories.idxOf a < f.categories.idxOf b := by
    by_contra hc
    push Not at hc
    have : digitize false f.splits (some ((f.categories.idxOf b : ℕ) : ℚ)) ≤
        digitize false f.splits (some ((f.categories.idxOf a : ℕ) : ℚ)) := by
      simp only [digitize, Bool.false_eq_true, if_false]
      refine List.countP_mono_left fun s _ hs => ?_
      simp only [decide_eq_true_eq] at *
      exact hs.trans (by exact_mod_cast hc)
    omega
  have hr := hrank ((splitData sc {} recs).clean.filter fun r => !r.inCats f.others)
  rw [← hc] at hr
  have := List.pairwise_iff_getElem.1 hr.sorted _ _ (List.idxOf_lt_length_of_mem ha1)
    (List.idxOf_lt_length_of_mem hb1) hlt
  rw [List.getElem_idxOf, List.getElem_idxOf, catRate_main hk _ ((hm a).1 ha1).1 ((hm a).1 ha1).2,
    catRate_main hk _ ((hm b).1 hb1).1 ((hm b).1 hb1).2] at this
  exact this

/-- Number of training records with a regular value. -/
def cleanSize (sc : SpecialCodes κ) (recs : List (Rec κ)) : ℕ :=
  recs.countP fun r => decide (r.x ≠ none ∧ r.y ≠ none) && !sc.codes.contains r.x

theorem cleanSize_eq (sc : SpecialCodes κ) (recs : List (Rec κ)) :
    (splitData sc {} recs).clean.length = cleanSize sc recs := by
  simp only [splitData, fixBounds, cleanSize]
  rw [← List.countP_eq_length_filter]
  refine List.countP_congr fun r _ => ?_
  simp only [Rec.isMissing, Rec.isSpecial, Bool.and_eq_true, Bool.not_eq_true', Bool.or_eq_false_iff, decide_eq_true_eq]
  cases hx : r.x <;> cases hy : r.y <;> simp

/-- C31, `cat_cutoff`: exactly the training categories whose number of records is below the fraction `cat_cutoff` of the
clean records are in the group "others", which is the last one; without `cat_cutoff` there is no such group. -/
theorem C31_others {cfg : PrebinCfg} {sc : SpecialCodes κ} {cutoff : Option ℚ} {rank : List (Rec κ) → List κ}
    {prebin : List (Rec ℚ) → List ℚ} {solver : Solver} {recs : List (Rec κ)} {f : CatFitted κ}
    (hk : KnownTargets recs) (h : fitCategorical cfg sc cutoff rank prebin solver recs = .ok f) (v : κ) :
    v ∈ f.others ↔ IsTrainCategory sc recs v ∧ ∃ q, cutoff = some q ∧
      ((catCount recs v : ℕ) : ℚ) < q * (cleanSize sc recs : ℚ) := by
  obtain ⟨ho, -, -⟩ := fitCategorical_unpack h
  rw [(cutoffOthers_mem ho).2 v, cleanSize_eq]
  have hclean : (∃ r ∈ (splitData sc {} recs).clean, r.x = some v) ↔ IsTrainCategory sc recs v := by
    constructor
    · rintro ⟨r, hr, hx⟩
      obtain ⟨h1, h2, h3, h4⟩ := (C01_groups sc recs r).1.1 hr
      exact ⟨hx ▸ h4, r, h1, hx, h3⟩
    · rintro ⟨h4, r, h1, hx, h3⟩
      exact ⟨r, (C01_groups sc recs r).1.2 ⟨h1, by simp [hx], h3, hx ▸ h4⟩, hx⟩
  rw [hclean]
  refine and_congr_right fun hv => ?_
  have hcl : (splitData sc {} recs).clean = recs.filter fun r => !r.isMissing && !r.isSpecial sc := rfl
  have : catCount (splitData sc {} recs).clean v = catCount recs v := by
    unfold catCount
    rw [hcl, List.countP_filter]
    refine List.countP_congr fun r hr => ?_
    simp only [Bool.and_eq_true, decide_eq_true_eq]
    constructor
    · exact fun h => h.1
    · intro hx
      refine ⟨hx, ?_⟩
      have hy := hk r hr
      have h2 : r.isSpecial sc = false := by
        rw [Bool.eq_false_iff]
        intro hs
        exact hv.1 (hx ▸ (contains_codes_iff _ _).1 hs)
      cases hy' : r.y with
      | none => exact absurd hy' hy
      | some b => simp [Rec.isMissing, hx, hy', h2]
  rw [this]

/-- C31: fit raises the documented error exactly if every clean record has a category below the cutoff. -/
theorem C31_cutoff_error (q : ℚ) (clean : List (Rec κ)) :
    (∃ e, categoricalCutoff q clean = .error e) ↔
      ∀ r ∈ clean, ∃ v, r.x = some v ∧ ((catCount clean v : ℕ) : ℚ) < q * (clean.length : ℚ) :=
  categoricalCutoff_error q clean

/-- Both columns of the table. -/
def CatFitted.column (f : CatFitted κ) (event : Bool) : List ℕ := if event then f.event else f.nonevent

/-- C03 for a categorical variable: row `k` of the table is the histogram of `transform(metric="indices")`. -/
theorem C03_histogram_categorical {cfg : PrebinCfg} {sc : SpecialCodes κ} {cutoff : Option ℚ}
    {rank : List (Rec κ) → List κ} {prebin : List (Rec ℚ) → List ℚ} {solver : Solver} {c : SolverCfg}
    {recs : List (Rec κ)} {f : CatFitted κ} (hsc : ProperCodes sc) (hk : KnownTargets recs) (hw : WholeWeights recs)
    (hrank : ∀ l, IsRanking l (rank l)) (hsolver : Respects c solver) (hsort : ∀ l, (prebin l).Pairwise (· ≤ ·))
    (h : fitCategorical cfg sc cutoff rank prebin solver recs = .ok f) (event : Bool) :
    (f.column event).length = f.bins.length + sc.count + 1 ∧
    ∀ k : ℕ, (((f.column event).getD k 0 : ℕ) : ℚ) =
      weight recs fun r => r.y = some event ∧
        transformCatIndices f.bins sc none .empirical .empirical [r.x] = [(k : ℤ)] := by
  obtain ⟨hn, hm, hoo⟩ := fit_categories hrank h
  obtain ⟨ho, hc, st', hcore⟩ := fitCategorical_unpack h
  set clean := (splitData sc {} recs).clean with hcleandef
  have hcl : ∀ r ∈ clean, r ∈ recs ∧ r.x ≠ none ∧ r.y ≠ none ∧ ¬ IsSpecialValue sc r.x :=
    fun r hr => (C01_groups sc recs r).1.1 hr
  have hcat : ∀ r ∈ clean, ∃ v, r.x = some v ∧ (v ∈ f.categories ∨ v ∈ f.others) := by
    intro r hr
    obtain ⟨h1, h2, h3, h4⟩ := hcl r hr
    cases hx : r.x with
    | none => exact absurd hx h2
    | some v =>
      refine ⟨v, rfl, ?_⟩
      by_cases hvo : v ∈ f.others
      · exact Or.inr hvo
      · exact Or.inl ((hm v).2 ⟨⟨hx ▸ h4, r, h1, hx, h3⟩, hvo⟩)
  have hcol := fitCore_column (cfg := { cfg with catUser := false }) rfl (fun nev ev hn => hsolver.last nev ev hn)
    (by
      intro r hr
      obtain ⟨q, hq, rfl⟩ := List.mem_map.1 hr
      obtain ⟨v, hv, -⟩ := hcat q (List.mem_of_mem_filter hq)
      simp [Rec.encode, hv])
    (by
      intro r hr
      obtain ⟨q, hq, rfl⟩ := List.mem_map.1 hr
      exact hw q (hcl q (List.mem_of_mem_filter hq)).1)
    (hsort _) hcore
  obtain ⟨reg, heq, hlen, hreg⟩ := hcol.2 event
  change f.column event = _ at heq
  change reg.length = f.splits.length + 1 at hlen
  have hscl := specialCounts_length sc (splitData sc {} recs).special event
  set oc : Option ℕ := (if f.others.length = 0 then none else
    some (truncWeight ((clean.filter fun r => r.inCats f.others).filter fun q => q.isEvent == event))) with hoc
  have hocl : oc.toList.length = if f.others.length = 0 then 0 else 1 := by
    rw [hoc]; split_ifs <;> rfl
  have hrl : (reg ++ oc.toList).length = f.bins.length := by
    rw [List.length_append, hlen, hocl, bins_length]
  rw [← List.append_assoc] at heq
  refine ⟨by rw [heq, List.length_append, hrl, List.length_append, hscl]; simp; omega, fun k => ?_⟩
  have hidx : ∀ v, (v ∈ f.categories ∨ v ∈ f.others) → ∀ k : ℕ,
      transformCatClean f.bins (fun i => (i : ℤ)) (-1) (some v) = (k : ℤ) ↔ v ∈ f.bins.getD k [] := by
    intro v hv k
    obtain ⟨i, h1, h2, h3⟩ := bin_unique hn (fun v hv => ((hm v).1 hv).2) v hv
    rw [transformCatClean_known _ _ _ _ h1 h2 h3]
    constructor
    · intro h; rw [Nat.cast_inj] at h; exact h ▸ h2
    · intro h; rw [h3 k h]
  rw [heq, histogram_core hsc hk hw event (nb := f.bins.length)
    (v0 := transformCatClean f.bins (fun i => (i : ℤ)) (-1)) hrl ?_ ?_ k]
  · refine weight_congr fun r _ => ?_
    simp [transformCatIndices, transformCat, MetricOpt.forIndices]
  · intro j hj
    have hsplit : (clean.filter (fun r => !r.inCats f.others) ++ clean.filter fun r => r.inCats f.others).Perm clean :=
      filter_not_perm clean _
    rw [← weight_perm hsplit, weight_append]
    have hmain : ∀ r ∈ clean.filter (fun r => !r.inCats f.others), ∃ v, r.x = some v ∧ v ∈ f.categories := by
      intro r hr
      obtain ⟨h1, h2⟩ := List.mem_filter.1 hr
      obtain ⟨v, hv, hv'⟩ := hcat r h1
      refine ⟨v, hv, hv'.resolve_right fun hvo => ?_⟩
      rw [(inCats_iff _ _).2 ⟨v, hvo, hv⟩] at h2
      simp at h2
    have hoth : ∀ r ∈ clean.filter (fun r => r.inCats f.others), ∃ v, r.x = some v ∧ v ∈ f.others := by
      intro r hr
      obtain ⟨v, hv, hv'⟩ := (inCats_iff _ _).1 (List.mem_filter.1 hr).2
      exact ⟨v, hv', hv⟩
    rcases Nat.lt_or_ge j (f.splits.length + 1) with hj1 | hj1
    · rw [List.getD_append _ _ _ _ (by omega), hreg j, weight_encode]
      rw [weight_eq_zero (a := clean.filter fun r => r.inCats f.others), add_zero]
      · unfold weight
        congr 2
        refine List.filter_congr fun r hr => ?_
        obtain ⟨v, hv, hvc⟩ := hmain r hr
        have hy := (hcl r (List.mem_of_mem_filter hr)).2.2.1
        rw [Bool.eq_iff_iff]
        simp only [Bool.and_eq_true, beq_iff_eq, decide_eq_true_eq]
        have e1 : (r.encode f.categories).isEvent = event ↔ r.y = some event := by
          rw [← isEvent_beq r hy event, beq_iff_eq]; rfl
        rw [e1, hv, hidx v (Or.inl hvc), mem_bins hn]
        have e2 : (r.encode f.categories).x = some ((f.categories.idxOf v : ℕ) : ℚ) := by simp [Rec.encode, hv]
        rw [e2]
        refine and_congr_right fun _ => ?_
        constructor
        · intro h; exact Or.inl ⟨by omega, hvc, h⟩
        · rintro (⟨-, -, h⟩ | ⟨h, -⟩)
          · exact h
          · omega
      · rintro r hr ⟨-, hp⟩
        obtain ⟨v, hv, hvo⟩ := hoth r hr
        rw [hv, hidx v (Or.inr hvo), mem_bins hn] at hp
        rcases hp with ⟨-, h, -⟩ | ⟨h, -⟩
        · exact ((hm v).1 h).2 hvo
        · omega
    · rw [List.getD_append_right _ _ _ _ (by omega), hlen]
      have h0 : ¬ f.others.length = 0 := by
        intro h0
        rw [bins_length, if_pos h0] at hj
        omega
      have hj2 : j = f.splits.length + 1 := by
        rw [bins_length, if_neg h0] at hj
        omega
      rw [hj2, Nat.sub_self, hoc, if_neg h0]
      simp only [Option.toList_some, List.getD_cons_zero]
      rw [truncWeight_weight (fun r hr => hw r (hcl r (List.mem_of_mem_filter hr)).1)]
      rw [weight_eq_zero (a := clean.filter fun r => !r.inCats f.others), zero_add]
      · refine weight_congr fun r hr => ?_
        obtain ⟨v, hv, hvo⟩ := hoth r hr
        have hy := (hcl r (List.mem_of_mem_filter hr)).2.2.1
        rw [isEvent_beq r hy, hv, hidx v (Or.inr hvo), mem_bins hn]
        simp [hvo]
      · rintro r hr ⟨-, hp⟩
        obtain ⟨v, hv, hvc⟩ := hmain r hr
        rw [hv, hidx v (Or.inl hvc), mem_bins hn] at hp
        rcases hp with ⟨h, -⟩ | ⟨-, h⟩
        · omega
        · exact ((hm v).1 hvc).2 h
  · intro r hr j hj
    obtain ⟨v, hv, hvc⟩ := hcat r hr
    rw [hv, hidx v hvc] at hj
    by_contra hcon
    rw [List.getD_eq_default _ _ (by omega)] at hj
    simp at hj

/-- Every value gets an index, and training values an index of a row of the table. -/
theorem catIndex_lt {f : CatFitted κ} {sc : SpecialCodes κ} (hsc : ProperCodes sc) {p : κ → Prop}
    (hp : Partitions f.bins p) (x : Option κ) (hx : ∀ v, x = some v → IsSpecialValue sc x ∨ p v) :
    ∃ k : ℕ, transformCatIndices f.bins sc none .empirical .empirical [x] = [(k : ℤ)] ∧
      k < f.bins.length + sc.count + 1 := by
  simp only [transformCatIndices, List.map_cons, List.map_nil, List.cons.injEq, and_true, MetricOpt.forIndices,
    transformCat]
  cases x with
  | none => exact ⟨_, assign_missing _ _ _ _ _ _, by omega⟩
  | some v =>
    by_cases hs : IsSpecialValue sc (some v)
    · obtain ⟨i, hi, h⟩ := assign_special (β := ℤ) hsc hs
      exact ⟨f.bins.length + i, by rw [h]; rfl, by omega⟩
    · obtain ⟨k, ⟨h1, h2⟩, h3⟩ := hp.1 v ((hx v rfl).resolve_left hs)
      refine ⟨k, ?_, by omega⟩
      rw [assign_clean _ _ _ _ _ _ _ hs, transformCatClean_known _ _ _ _ h1 h2 fun j hj => h3 j ⟨?_, hj⟩]
      by_contra hc
      rw [List.getD_eq_default _ _ (by omega)] at hj
      simp at hj

/-- C02 for a categorical variable: the columns of the table add up to the totals of the training data. -/
theorem C02_totals_categorical {cfg : PrebinCfg} {sc : SpecialCodes κ} {cutoff : Option ℚ}
    {rank : List (Rec κ) → List κ} {prebin : List (Rec ℚ) → List ℚ} {solver : Solver} {c : SolverCfg}
    {recs : List (Rec κ)} {f : CatFitted κ} (hsc : ProperCodes sc) (hk : KnownTargets recs) (hw : WholeWeights recs)
    (hrank : ∀ l, IsRanking l (rank l)) (hsolver : Respects c solver) (hsort : ∀ l, (prebin l).Pairwise (· ≤ ·))
    (h : fitCategorical cfg sc cutoff rank prebin solver recs = .ok f) (event : Bool) :
    (((f.column event).sum : ℕ) : ℚ) = weight recs fun r => r.y = some event := by
  obtain ⟨hl, hh⟩ := C03_histogram_categorical hsc hk hw hrank hsolver hsort h event
  have hp := C31_partition hrank h
  have hex : ∀ r : Rec κ, ∃ k : ℕ, r ∈ recs →
      transformCatIndices f.bins sc none .empirical .empirical [r.x] = [(k : ℤ)] ∧
      k < f.bins.length + sc.count + 1 := by
    intro r
    by_cases hr : r ∈ recs
    · obtain ⟨k, h1⟩ := catIndex_lt hsc hp r.x (fun v hv => by
        by_cases hs : IsSpecialValue sc r.x
        · exact Or.inl hs
        · exact Or.inr ⟨hv ▸ hs, r, hr, hv, hk r hr⟩)
      exact ⟨k, fun _ => h1⟩
    · exact ⟨0, fun h => absurd h hr⟩
  choose idx hidx using hex
  rw [list_sum_range, Nat.cast_sum]
  simp only [hh]
  have key := sum_filter_classes recs (fun r => decide (r.y = some event)) idx (f.column event).length
    (fun _ => true) (fun r hr => by rw [hl]; exact (hidx r hr).2)
  simp only [if_true, Bool.and_true] at key
  unfold weight
  rw [← key]
  refine sum_congr rfl fun k _ => ?_
  congr 2
  refine List.filter_congr fun r hr => ?_
  beta_reduce
  rw [(hidx r hr).1, Bool.eq_iff_iff]
  simp

/-! ## C32 -/

/-- C32: a value which is in no group and is no special code gets `cat_unknown`, for every metric and all options. -/
theorem C32_unknown {β : Type*} (bins : List (List κ)) (sc : SpecialCodes κ) (mv : ℕ → β) (unk : β) (ms mm : Option β)
    (v : κ) (hv : ∀ b ∈ bins, v ∉ b) (hs : ¬ IsSpecialValue sc (some v)) :
    transformCat bins sc mv unk ms mm (some v) = unk := by
  rw [transformCat, assign_clean _ _ _ _ _ _ _ hs, transformCatClean_unknown _ _ _ _ hv]

/-- C32: a category not seen in training gets the index `cat_unknown`, by default -1. -/
theorem C32_unknown_index {cfg : PrebinCfg} {sc : SpecialCodes κ} {cutoff : Option ℚ} {rank : List (Rec κ) → List κ}
    {prebin : List (Rec ℚ) → List ℚ} {solver : Solver} {recs : List (Rec κ)} {f : CatFitted κ}
    (hrank : ∀ l, IsRanking l (rank l)) (h : fitCategorical cfg sc cutoff rank prebin solver recs = .ok f) (v : κ)
    (hnew : ∀ r ∈ recs, r.x ≠ some v) (hs : ¬ IsSpecialValue sc (some v)) (cu : Option ℤ) (ms mm : MetricOpt) :
    transformCatIndices f.bins sc cu ms mm [some v] = [cu.getD (-1)] := by
  have hp := (C31_partition hrank h).2 v (fun ht => by obtain ⟨r, hr, hx, -⟩ := ht.2; exact hnew r hr hx)
  simp [transformCatIndices, C32_unknown _ _ _ _ _ _ _ hp hs]

/-- C32: a category not seen in training gets the event rate `cat_unknown` if given, and by default the mean event
rate computed from the table. -/
theorem C32_unknown_rate {cfg : PrebinCfg} {sc : SpecialCodes κ} {cutoff : Option ℚ} {rank : List (Rec κ) → List κ}
    {prebin : List (Rec ℚ) → List ℚ} {solver : Solver} {recs : List (Rec κ)} {f : CatFitted κ}
    (hrank : ∀ l, IsRanking l (rank l)) (h : fitCategorical cfg sc cutoff rank prebin solver recs = .ok f) (v : κ)
    (hnew : ∀ r ∈ recs, r.x ≠ some v) (hs : ¬ IsSpecialValue sc (some v)) (ms mm : MetricOpt) :
    (∀ k : ℤ, transformCatRate f.bins f.nonevent f.event sc (some (.int k)) ms mm [some v] = [(k : ℚ)]) ∧
    (∀ q : ℚ, transformCatRate f.bins f.nonevent f.event sc (some (.float q)) ms mm [some v] = [q]) ∧
    transformCatRate f.bins f.nonevent f.event sc none ms mm [some v] =
      [meanEventRate f.bins.length ms mm f.nonevent f.event] := by
  have hp := (C31_partition hrank h).2 v (fun ht => by obtain ⟨r, hr, hx, -⟩ := ht.2; exact hnew r hr hx)
  simp [transformCatRate, C32_unknown _ _ _ _ _ _ _ hp hs, CatUnknown.value]

/-- C32, default value: if special or missing values are treated empirically, it is the event rate of the training
data, i.e. events over records. -/
theorem C32_default_is_average {cfg : PrebinCfg} {sc : SpecialCodes κ} {cutoff : Option ℚ}
    {rank : List (Rec κ) → List κ} {prebin : List (Rec ℚ) → List ℚ} {solver : Solver} {c : SolverCfg}
    {recs : List (Rec κ)} {f : CatFitted κ} (hsc : ProperCodes sc) (hk : KnownTargets recs) (hw : WholeWeights recs)
    (hrank : ∀ l, IsRanking l (rank l)) (hsolver : Respects c solver) (hsort : ∀ l, (prebin l).Pairwise (· ≤ ·))
    (h : fitCategorical cfg sc cutoff rank prebin solver recs = .ok f) (ms mm : MetricOpt)
    (he : ms = .empirical ∨ mm = .empirical) :
    meanEventRate f.bins.length ms mm f.nonevent f.event =
      weight recs (fun r => r.y = some true) / weight recs (fun _ => True) := by
  have h1 : ((f.event.sum : ℕ) : ℚ) = _ := C02_totals_categorical hsc hk hw hrank hsolver hsort h true
  have h2 : ((f.nonevent.sum : ℕ) : ℚ) = _ := C02_totals_categorical hsc hk hw hrank hsolver hsort h false
  have h3 : (ms.isEmpirical || mm.isEmpirical) = true := by rcases he with rfl | rfl <;> simp [MetricOpt.isEmpirical]
  have h4 : weight recs (fun _ => True) = weight recs (fun r => r.y = some true) + weight recs (fun r => r.y = some false) := by
    clear h1 h2 hw h
    unfold weight
    induction recs with
    | nil => simp
    | cons r recs ih =>
      have := ih fun q hq => hk q (by simp [hq])
      have hr := hk r (by simp)
      cases hy : r.y with
      | none => exact absurd hy hr
      | some b =>
        cases b <;> simp [List.filter_cons, hy] at this ⊢ <;> rw [this] <;> ring
  rw [meanEventRate, if_pos h3, h4, ← h1, ← h2]
  push_cast
  ring

/-- C32, known values: with a float or default `cat_unknown` the value of a known category is the event rate of its row,
whatever `cat_unknown` is. -/
theorem C32_known_unaffected_partial (bins : List (List κ)) (nonevent event : List ℕ) (sc : SpecialCodes κ)
    {p : κ → Prop} (hp : Partitions bins p) (v : κ) (hv : p v) (hs : ¬ IsSpecialValue sc (some v))
    (cu : Option CatUnknown) (hcu : ∀ k, cu ≠ some (.int k)) (ms mm : MetricOpt) {i : ℕ} (hi : v ∈ bins.getD i []) :
    transformCatRate bins nonevent event sc cu ms mm [some v] = [tableRate nonevent event i] := by
  obtain ⟨k, ⟨h1, h2⟩, h3⟩ := hp.1 v hv
  have hlt : ∀ j, v ∈ bins.getD j [] → j < bins.length := by
    intro j hj
    by_contra hc
    rw [List.getD_eq_default _ _ (by omega)] at hj
    simp at hj
  have hki : k = i := (h3 i ⟨hlt i hi, hi⟩).symm
  subst hki
  simp only [transformCatRate, List.map_cons, List.map_nil, transformCat, assign_clean _ _ _ _ _ _ _ hs,
    transformCatClean_known _ _ _ _ h1 h2 fun j hj => h3 j ⟨hlt j hj, hj⟩]
  cases cu with
  | none => rfl
  | some c =>
    cases c with
    | int k => exact absurd rfl (hcu k)
    | float q => rfl

/-- C32, finding: the claim fails for an integer `cat_unknown`: the result array is then an integer array and the event
rates of all known categories are truncated to 0. -/
theorem C32_int_truncates_known (bins : List (List κ)) (nonevent event : List ℕ) (sc : SpecialCodes κ) {p : κ → Prop}
    (hp : Partitions bins p) (v : κ) (hv : p v) (hs : ¬ IsSpecialValue sc (some v)) (k : ℤ) (ms mm : MetricOpt) :
    transformCatRate bins nonevent event sc (some (.int k)) ms mm [some v] = [0] := by
  obtain ⟨i, ⟨h1, h2⟩, h3⟩ := hp.1 v hv
  have hlt : ∀ j, v ∈ bins.getD j [] → j < bins.length := by
    intro j hj
    by_contra hc
    rw [List.getD_eq_default _ _ (by omega)] at hj
    simp at hj
  simp only [transformCatRate, List.map_cons, List.map_nil, transformCat, assign_clean _ _ _ _ _ _ _ hs,
    transformCatClean_known _ _ _ _ h1 h2 fun j hj => h3 j ⟨hlt j hj, hj⟩]
  simp only [storeCell, tableRate, List.cons.injEq, and_true]
  split_ifs with h4 h5 h5
  · have ha : (0 : ℚ) < (event.getD i 0 : ℚ) := by exact_mod_cast h4.1
    have hb : (0 : ℚ) < (nonevent.getD i 0 : ℚ) := by exact_mod_cast h4.2
    have : ⌊(event.getD i 0 : ℚ) / ((event.getD i 0 + nonevent.getD i 0 : ℕ) : ℚ)⌋ = 0 := by
      rw [Int.floor_eq_iff]
      push_cast
      refine ⟨by positivity, ?_⟩
      rw [div_lt_iff₀ (by positivity)]
      linarith
    rw [this]; rfl
  · exact absurd (by positivity) h5
  · simp
  · simp

/-! ### a concrete fit -/

/-- An executable ranking. -/
def rankImpl (l : List (Rec κ)) : List κ :=
  (l.filterMap Rec.x).dedup.insertionSort fun a b => catRate l a ≤ catRate l b

theorem rankImpl_isRanking (l : List (Rec κ)) : IsRanking l (rankImpl l) := by
  have : Std.Total (fun a b : κ => catRate l a ≤ catRate l b) := ⟨fun a b => le_total _ _⟩
  have : IsTrans κ (fun a b : κ => catRate l a ≤ catRate l b) := ⟨fun a b c => le_trans⟩
  have hp := List.perm_insertionSort (fun a b : κ => catRate l a ≤ catRate l b) (l.filterMap Rec.x).dedup
  refine ⟨hp.nodup_iff.2 (List.nodup_dedup _), fun c => ?_, List.pairwise_insertionSort _ _⟩
  unfold rankImpl
  rw [hp.mem_iff, List.mem_dedup, List.mem_filterMap]

/-- Categories 1 (rate 1/3), 2 (rate 2/3), 3 (rate 1/2), 4 (one record), special code 9, missing values. -/
def exCatRecs : List (Rec ℕ) :=
  [⟨some 1, some false, 1⟩, ⟨some 2, some true, 1⟩, ⟨some 3, some true, 1⟩, ⟨some 1, some true, 1⟩,
   ⟨some 2, some true, 1⟩, ⟨some 4, some true, 1⟩, ⟨some 1, some false, 1⟩, ⟨some 3, some false, 1⟩,
   ⟨none, some true, 1⟩, ⟨some 2, some false, 1⟩, ⟨some 9, some false, 1⟩]

theorem exCatFit : ∃ f : CatFitted ℕ,
    fitCategorical {} (.list [some 9]) (some (2 / 9)) rankImpl (fun _ => [2⁻¹]) (exSolver fun _ _ => 0) exCatRecs =
      .ok f ∧ f.bins = [[1], [3, 2], [4]] ∧ f.nonevent = [2, 2, 0, 1, 0] ∧ f.event = [1, 3, 1, 0, 1] := by
  have hco : cutoffOthers (some (2 / 9)) (splitData (.list [some 9]) {} exCatRecs).clean = .ok [4] := by decide +kernel
  have hr : rankImpl ((splitData (.list [some 9]) {} exCatRecs).clean.filter fun r => !r.inCats [4]) = [1, 3, 2] := by
    decide +kernel
  have hpc : computePrebins {} (((splitData (.list [some 9]) {} exCatRecs).clean.filter fun r => !r.inCats [4]).map
      (Rec.encode [1, 3, 2])) {} [2⁻¹] = .ok ⟨{}, [2⁻¹], [2, 2], [1, 3]⟩ := by
    rw [computePrebins]
    have h1 : prebinCounts false 2 [2⁻¹] (((splitData (.list [some 9]) {} exCatRecs).clean.filter
      fun r => !r.inCats [4]).map (Rec.encode [1, 3, 2])) false = [2, 2] := by decide +kernel
    have h2 : prebinCounts false 2 [2⁻¹] (((splitData (.list [some 9]) {} exCatRecs).clean.filter
      fun r => !r.inCats [4]).map (Rec.encode [1, 3, 2])) true = [1, 3] := by decide +kernel
    simp [prebinNumber, h1, h2, pureMask]
  have hs : ∀ e, specialCounts (.list [some 9]) (splitData (.list [some 9]) {} exCatRecs).special e =
      if e then [0] else [1] := by decide +kernel
  have hm : ∀ e, truncWeight ((splitData (.list [some 9]) {} exCatRecs).missing.filter fun q => q.isEvent == e) =
      if e then 1 else 0 := by decide +kernel
  have ho : ∀ e, truncWeight (((splitData (.list [some 9]) {} exCatRecs).clean.filter fun r => r.inCats [4]).filter
      fun q => q.isEvent == e) = if e then 1 else 0 := by decide +kernel
  have h3 := exSolver_solve (fun _ _ => 0) [2, 2] [1, 3] (by decide)
  refine ⟨⟨"FEASIBLE", [2⁻¹], [1, 3, 2], [4], [2, 2, 0, 1, 0], [1, 3, 1, 0, 1]⟩, ?_, by decide +kernel, rfl, rfl⟩
  simp only [fitCategorical, hco, hr, fitCore, hpc, bind, Except.bind, pure, Except.pure, hs, hm, ho]
  rw [show fitOptimizer false (exSolver fun _ _ => 0) [2⁻¹] [2, 2] [1, 3] =
    (⟨"FEASIBLE", [2⁻¹], [true, true]⟩ : OptimizerResult ℚ) by rw [fitOptimizer, h3]; rfl]
  rfl

example : ProperCodes (.list [some 9] : SpecialCodes ℕ) ∧ KnownTargets exCatRecs ∧
    (∀ l : List (Rec ℕ), IsRanking l (rankImpl l)) ∧ IsTrainCategory (.list [some 9]) exCatRecs 4 ∧
    Respects { div := fun _ _ => 0 } (exSolver fun _ _ => 0) := by
  refine ⟨⟨by simp [IsSpecialValue], trivial⟩, ?_, rankImpl_isRanking, ⟨by simp [IsSpecialValue], ?_⟩,
    exSolver_respects _⟩
  · unfold KnownTargets exCatRecs; simp
  · exact ⟨⟨some 4, some true, 1⟩, by simp [exCatRecs], rfl, by simp⟩

example : transformCatIndices [[1], [3, 2], [4]] (.list [some 9]) none .empirical .empirical
    [some 1, some 2, some 3, some 4, some 9, none, some 7] = [0, 1, 1, 2, 3, 4, -1] := by decide

/-- C32, finding: with the default options the default value for unknown categories is not the average event rate: it
divides the events of all rows by the records of the regular rows only, and can exceed 1 (here 11/2 instead of 11/12). -/
theorem C32_default_exceeds_one : ∃ (recs : List (Rec ℕ)) (f : CatFitted ℕ),
    fitCategorical {} (.list [some 9]) none rankImpl (fun _ => []) (exSolver fun _ _ => 0) recs = .ok f ∧
    KnownTargets recs ∧ WholeWeights recs ∧
    weight recs (fun r => r.y = some true) / weight recs (fun _ => True) = 11 / 12 ∧
    transformCatRate f.bins f.nonevent f.event (.list [some 9]) none (.int 0) (.int 0) [some 7] = [11 / 2] := by
  refine ⟨[⟨some 1, some true, 1⟩, ⟨some 1, some false, 1⟩, ⟨some 9, some true, 10⟩],
    ⟨"OPTIMAL", [], [1], [], [1, 0, 0], [1, 10, 0]⟩, ?_, ?_, ?_, ?_, by decide +kernel⟩
  · have hs : ∀ e, specialCounts (.list [some 9]) (splitData (.list [some 9]) {} [⟨some 1, some true, 1⟩,
        ⟨some 1, some false, 1⟩, (⟨some 9, some true, 10⟩ : Rec ℕ)]).special e = if e then [10] else [0] := by
      decide +kernel
    have hm : ∀ e, truncWeight ((splitData (.list [some 9]) {} [⟨some 1, some true, 1⟩,
        ⟨some 1, some false, 1⟩, (⟨some 9, some true, 10⟩ : Rec ℕ)]).missing.filter fun q => q.isEvent == e) = 0 := by
      decide +kernel
    have hr : rankImpl ((splitData (.list [some 9]) {} [⟨some 1, some true, 1⟩,
        ⟨some 1, some false, 1⟩, (⟨some 9, some true, 10⟩ : Rec ℕ)]).clean.filter fun r => !r.inCats []) = [1] := by
      decide +kernel
    have ht : ∀ e, truncWeight ((((splitData (.list [some 9]) {} [⟨some 1, some true, 1⟩,
        ⟨some 1, some false, 1⟩, (⟨some 9, some true, 10⟩ : Rec ℕ)]).clean.filter fun r => !r.inCats []).map
        (Rec.encode [1])).filter fun q => q.isEvent == e) = 1 := by
      decide +kernel
    simp only [fitCategorical, cutoffOthers, hr, fitCore, bind, Except.bind, pure, Except.pure, hs, hm]
    rw [computePrebins]
    simp only [List.length_nil, dite_true, fitOptimizer, if_true, ht]
    rfl
  · unfold KnownTargets; simp
  · intro r hr
    simp only [List.mem_cons, List.not_mem_nil, or_false] at hr
    rcases hr with rfl | rfl | rfl
    · exact ⟨1, Nat.cast_one.symm⟩
    · exact ⟨1, Nat.cast_one.symm⟩
    · exact ⟨10, (Nat.cast_ofNat (R := ℚ)).symm⟩
  · decide +kernel

end OptBinning
