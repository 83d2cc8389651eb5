import Verif.Props.CatUserC
import Verif.Props.UserParamsC

/-!
# C122: limits and trend of a fit with groups of categories
-/
namespace OptBinning
open OptBinning.Spec

variable {κ : Type} [LinearOrder κ] {p : ParamsC} {cutoff : Option XQ} {sc : SpecialCodes κ} {sortGroups : List (RecC κ) → List (List κ) → List (List κ)}
  {solver : SolverC} {us : List (List κ)} {old old' : MissingStats} {recs : List (RecC κ)} {f : CatUserFittedC κ}

theorem fitCatUserParamsC_ok (h : fitCatUserParamsC p cutoff sc sortGroups solver us old recs = .ok (old', f)) : checkParametersC p = .ok () ∧
    badCutoff cutoff = false ∧ fitCategoricalUserC sc sortGroups solver us old recs = .ok (old', f) := by
  unfold fitCatUserParamsC at h
  split at h
  · cases h
  rename_i h1
  split_ifs at h with h2
  exact ⟨h1, by simpa using h2, h⟩

/-- A code is in the same bin of the cut points between the groups. -/
theorem digitize_cuts {S : List ℕ} (hs : S.Pairwise (· < ·)) (hne : S ≠ []) {v : ℕ} (hlt : digitize true S (some v) < S.length) :
    digitize false (S.dropLast.map (· + 1)) (some v) = digitize true S (some v) := by
  have hsplit : S = S.dropLast ++ [S.getLast hne] := (List.dropLast_append_getLast hne).symm
  have hlast : ¬ S.getLast hne < v := by
    intro hlv
    have : S.countP (fun s => decide (s < v)) = S.length := by
      rw [List.countP_eq_length]
      intro s hs'
      have hle : s ≤ S.getLast hne := by
        rw [hsplit] at hs' hs
        rcases List.mem_append.1 hs' with h | h
        · exact ((List.pairwise_append.1 hs).2.2 s h _ (by simp)).le
        · simpa using le_of_eq (List.mem_singleton.1 h)
      exact decide_eq_true (lt_of_le_of_lt hle hlv)
    simp only [digitize, if_true] at hlt
    omega
  simp only [digitize, if_true, Bool.false_eq_true, if_false, List.countP_map]
  conv_rhs => rw [hsplit, List.countP_append]
  rw [List.countP_singleton, if_neg (by simpa using hlast), add_zero]
  refine List.countP_congr fun s _ => ?_
  simp [Nat.succ_le_iff]

/-- The pre-bins of the groups are those of the cut points between the groups. -/
theorem groups_as_cuts {codes : List (RecC ℕ)} {S : List ℕ} (hs : S.Pairwise (· < ·)) (h2 : 2 ≤ S.length)
    (hcov : ∀ r ∈ codes, ∃ v, r.x = some v ∧ digitize true S (some v) < S.length) :
    prebinCells false ((S.dropLast.map (· + 1)).length + 1) (S.dropLast.map (· + 1)) codes = prebinCells true S.length S codes := by
  have hl : (S.dropLast.map (· + 1)).length + 1 = S.length := by simp; omega
  rw [hl]
  unfold prebinCells
  refine List.map_congr_left fun i _ => ?_
  refine congrArg cellOf (List.filter_congr fun r hr => ?_)
  obtain ⟨v, hv, hlt⟩ := hcov r hr
  rw [hv, digitize_cuts hs (by rintro rfl; simp at h2) hlt]

theorem select_dropLast {β : Type*} {S : List β} {m : List Bool} (hl : m.length = S.length) (hm : m.getLast? = some true) :
    select S.dropLast m.dropLast = (select S m).dropLast := by
  obtain ⟨l, rfl⟩ := List.getLast?_eq_some_iff.1 hm
  rcases List.eq_nil_or_concat S with rfl | ⟨S', x, rfl⟩
  · simp at hl
  · have h1 : S'.length = l.length := by simp at hl; omega
    simp [select, List.zip_append h1, List.filterMap_append]

theorem select_map_succ (S : List ℕ) (m : List Bool) : select (S.map (· + 1)) m = (select S m).map (· + 1) := by
  unfold select
  rw [List.zip_map_left, List.filterMap_map, List.map_filterMap]
  refine List.filterMap_congr fun q _ => ?_
  by_cases h : q.2 <;> simp [h]

open Classical in
/-- The records with the codes of their groups in a list of the length of `recs`: all others as missing records. -/
noncomputable def userAsNumbers (sc : SpecialCodes κ) (groups : List (List κ)) (others : List κ) (recs : List (RecC κ)) : List (RecC ℕ) :=
  recs.map fun r => if (!r.isMissing && !r.isSpecial sc) = true ∧ r.inCats others = false then r.encodeGroup groups else ⟨none, none, 1⟩

theorem userAsNumbers_clean (sc : SpecialCodes κ) (groups : List (List κ)) (others : List κ) (recs : List (RecC κ)) :
    (splitDataC .none none (userAsNumbers sc groups others recs)).clean =
      ((splitDataC sc none recs).clean.filter fun r => !r.inCats others).map (RecC.encodeGroup groups) := by
  show (userAsNumbers sc groups others recs).filter _ = ((recs.filter _).filter _).map _
  induction recs with
  | nil => rfl
  | cons r l ih =>
    unfold userAsNumbers at ih ⊢
    rw [List.map_cons, List.filter_cons, ih]
    by_cases h : (!r.isMissing && !r.isSpecial sc) = true ∧ r.inCats others = false
    · have hy : r.y ≠ none := by
        have := h.1
        simp only [Bool.and_eq_true, Bool.not_eq_true', RecC.isMissing, Bool.or_eq_false_iff, Option.isNone_eq_false_iff, Option.isSome_iff_ne_none] at this
        exact this.1.2
      have h1 : ((!(r.encodeGroup groups).isMissing && !(r.encodeGroup groups).isSpecial SpecialCodes.none) : Bool) = true := by
        cases hy' : r.y with
        | none => exact absurd hy' hy
        | some y => simp [RecC.encodeGroup, RecC.isMissing, RecC.isSpecial, SpecialCodes.codes, hy']
      have h2 : (!r.inCats others) = true := by simp [h.2]
      rw [if_pos h, if_pos h1]
      conv_rhs => rw [List.filter_cons, if_pos h.1, List.filter_cons, if_pos h2, List.map_cons]
    · rw [if_neg h, if_neg (by simp [RecC.isMissing])]
      by_cases h1 : (!r.isMissing && !r.isSpecial sc) = true
      · have h2 : ¬ (!r.inCats others) = true := fun h2 => h ⟨h1, by simpa using h2⟩
        conv_rhs => rw [List.filter_cons, if_pos h1, List.filter_cons, if_neg h2]
      · conv_rhs => rw [List.filter_cons, if_neg h1]

theorem userAsNumbers_length (sc : SpecialCodes κ) (groups : List (List κ)) (others : List κ) (recs : List (RecC κ)) :
    (userAsNumbers sc groups others recs).length = recs.length := by simp [userAsNumbers]

/-- A fit with groups is a fit of the positions of the groups. -/
theorem user_numericalC_full (hsg : ∀ l g, (sortGroups l g).Perm g)
    (hsolver : ∀ cells : List CellC, 0 < cells.length → (solve cells.length (solver cells)).2.getLast? = some true) (hu : UnitWeights recs)
    (h : fitCatUserParamsC p cutoff sc sortGroups solver us old recs = .ok (old', f)) 
    (hne : 2 ≤ f.splits.length ∨ 2 ≤ us.length ∧ ∀ g ∈ us, Occurs sc recs g) :
    ∃ (pb : List (RecC ℕ) → List ℕ) (o : MissingStats) (g : FittedC ℕ),
      fitParamsC p.forCategorical .none none pb solver {} (userAsNumbers sc f.groups f.others recs) = .ok (o, g) ∧ g.status = f.status ∧
      g.splits.length + 1 = f.splits.length ∧ (∀ k < f.splits.length, g.rows[k]? = f.rows[k]?) ∧
      g.splits = f.splits.dropLast.map (· + 1) ∧ ((∀ g ∈ us, Occurs sc recs g) → pb = fun _ => (List.range us.length).dropLast.map (· + 1)) := by
  obtain ⟨h1, -, h3⟩ := fitCatUserParamsC_ok h
  obtain ⟨hperm, hn, hpos, hmo⟩ := userC_groups hsg h3
  obtain ⟨hus, -, -, -, special, st', hsp, hcore⟩ := fitCategoricalUserC_unpack h3
  set codes := ((splitDataC sc none recs).clean.filter fun r => !r.inCats f.others).map (RecC.encodeGroup f.groups) with hcodes
  have hgl : f.groups.length ≠ 0 := by rw [hperm.length_eq]; exact fun hc => hus (List.length_eq_zero_iff.1 hc)
  obtain ⟨hc, pb, hpb, -, hcase⟩ := fitCoreC_user_cases (by simpa using hgl) hcore
  obtain ⟨hsub, h2, h3', h4⟩ := computePrebinsC_spec _ _ _ _ _ hpb
  have hlen : pb.cells.length = pb.splits.length := by rw [h3']; simp [prebinCells, prebinNumber]
  have hu' : UnitWeights codes := by
    intro q hq
    obtain ⟨r, hr, rfl⟩ := List.mem_map.1 hq
    exact hu r ((userC_main hsg h3).1 hr).1
  have hsp' : pb.splits.Pairwise (· < ·) := List.pairwise_lt_range.sublist hsub
  have hcov : ∀ r ∈ codes, ∃ v, r.x = some v ∧ digitize true pb.splits (some v) < pb.splits.length := by
    intro q hq
    obtain ⟨r, hr, rfl⟩ := List.mem_map.1 hq
    obtain ⟨-, -, v, hv, i, g, hp, hvg⟩ := (userC_main hsg h3).1 hr
    have hx := userC_code hsg h3 hv hp hvg
    refine ⟨i, hx, ?_⟩
    have hm : i ∈ pb.splits := computePrebinsC_keeps hu' hq hx _ _ _ List.pairwise_lt_range
      (List.mem_range.2 (List.getElem?_eq_some_iff.1 hp).1) hpb
    obtain ⟨j, hj, rfl⟩ := List.mem_iff_getElem.1 hm
    rw [digitize_right_idx hsp' (List.getElem?_eq_getElem hj)]
    exact hj
  have hall : (∀ g ∈ us, Occurs sc recs g) → pb.splits = List.range us.length := by
    intro ho
    rw [← hperm.length_eq]
    refine hsub.eq_of_length_le ?_
    have hsubset : List.range f.groups.length ⊆ pb.splits := by
      intro i hi
      have hi' := List.mem_range.1 hi
      have hg := List.getElem?_eq_getElem hi'
      obtain ⟨v, hv, r, h1, h2, h3x⟩ := ho _ (hperm.mem_iff.1 (List.getElem_mem hi'))
      have hr := (userC_main hsg h3).2 ⟨h1, h2, v, h3x, i, _, hg, hv⟩
      exact computePrebinsC_keeps hu' (List.mem_map.2 ⟨r, hr, rfl⟩) (userC_code hsg h3 h3x hg hv) _ _ _ List.pairwise_lt_range hi hpb
    exact (List.nodup_range.subperm hsubset).length_le
  rcases hcase with ⟨hle, e⟩ | ⟨hge, e⟩
  · exfalso
    have e1 : f.splits = pb.splits := congrArg FittedC.splits e
    rcases hne with hne | ⟨hne, ho⟩
    · rw [e1] at hne
      omega
    · rw [hlen, hall ho, List.length_range] at hle
      omega
  · have e0 : f.status = _ := congrArg FittedC.status e
    have e1 : f.splits = _ := congrArg FittedC.splits e
    have e2 : f.rows = _ := congrArg FittedC.rows e
    simp only at e0 e1 e2
    set cuts := pb.splits.dropLast.map (· + 1) with hcuts
    have hcl : cuts.length + 1 = pb.splits.length := by simp [hcuts]; omega
    have hcells : prebinCells false (cuts.length + 1) cuts codes = pb.cells := by
      rw [hcuts, groups_as_cuts hsp' (by omega) hcov, h3']; rfl
    have hpb2 : computePrebinsC false codes {} cuts = .ok ⟨{}, cuts, pb.cells⟩ := by
      rw [computePrebinsC]
      simp only [prebinNumber, Bool.false_eq_true, if_false, hcells]
      rw [dif_neg (by omega), dif_neg]
      rw [List.any_eq_true]
      rintro ⟨b, hb, hb'⟩
      obtain ⟨c, hc, rfl⟩ := List.mem_map.1 hb
      exact h4 c hc (by simpa using hb')
    have hcne : cuts ≠ [] := by
      intro h0
      rw [h0] at hcl
      simp at hcl
      omega
    have hfit := fitCoreC_eq (solver := solver) (others := none)
      (special := [summaryC (splitDataC .none none (userAsNumbers sc f.groups f.others recs)).special])
      (missing := missingRow {} (splitDataC .none none (userAsNumbers sc f.groups f.others recs)).missing) hc hcne hpb2
    simp only at hfit
    have hsl := solve_length pb.cells.length (solver pb.cells)
    have hlast := hsolver pb.cells (by omega)
    refine Exists.intro (fun _ => cuts) (Exists.intro ?o (Exists.intro ?g ⟨?hf, ?hs, ?hl, ?hr, ?hsp, ?hall⟩))
    case hf =>
      unfold fitParamsC
      rw [checkParametersC_cat, h1]
      unfold fitNumericalC
      simp only [specialRows, userAsNumbers_clean]
      rw [← hcodes]
      simp only [hfit, bind, Except.bind, pure, Except.pure]
      rfl
    case hs => exact e0.symm
    case hl =>
      rw [e1, length_select _ _ (by rw [List.length_dropLast, hsl]; omega), length_select _ _ (by omega)]
      obtain ⟨l, hl⟩ := List.getLast?_eq_some_iff.1 hlast
      rw [hl]; simp
    case hr =>
      intro k hk
      have hacc : (accumRows (solve pb.cells.length (solver pb.cells)).2 pb.cells CellC.zero).length = f.splits.length := by
        rw [accumRows_cells, List.length_map, accumCells_length _ _ _ hsl, e1, length_select _ _ (by omega)]
      rw [e2]
      simp only
      rw [List.getElem?_append_left (by omega), List.getElem?_append_left (by omega)]
    case hsp =>
      simp only
      rw [e1, select_map_succ, select_dropLast (by omega) hlast]
    case hall => exact fun ho => by rw [hcuts, hall ho]

/-- A fit with at least two bins is a fit of the positions of the groups. -/
theorem user_numericalC (hsg : ∀ l g, (sortGroups l g).Perm g)
    (hsolver : ∀ cells : List CellC, 0 < cells.length → (solve cells.length (solver cells)).2.getLast? = some true) (hu : UnitWeights recs)
    (h : fitCatUserParamsC p cutoff sc sortGroups solver us old recs = .ok (old', f)) (hne : 2 ≤ f.splits.length) :
    ∃ (pb : List (RecC ℕ) → List ℕ) (o : MissingStats) (g : FittedC ℕ),
      fitParamsC p.forCategorical .none none pb solver {} (userAsNumbers sc f.groups f.others recs) = .ok (o, g) ∧ g.status = f.status ∧
      g.splits.length + 1 = f.splits.length ∧ ∀ k < f.splits.length, g.rows[k]? = f.rows[k]? := by
  obtain ⟨pb, o, g, a, b, c, d, -⟩ := user_numericalC_full hsg hsolver hu h (Or.inl hne)
  exact ⟨pb, o, g, a, b, c, d⟩

/-- C122: a fit which succeeds had valid arguments. -/
theorem C122_arguments (h : fitCatUserParamsC p cutoff sc sortGroups solver us old recs = .ok (old', f)) : checkParametersC p = .ok () ∧
    (∀ v, cutoff = some v → NumIn v fun q => 0 < q ∧ q ≤ 1) ∧ us ≠ [] ∧ us.flatten.Nodup := by
  obtain ⟨h1, h2, h3⟩ := fitCatUserParamsC_ok h
  refine ⟨h1, ?_, C122_accepted h3⟩
  rintro v rfl
  cases v <;> simp_all [badCutoff, XQ.above, XQ.atMost, NumIn]

/-- C122: a fit with at least two bins before "others" meets the requested limits: the number of these bins is in the limits, each has at least
`min_bin_size * N` records and less than one record more than `max_bin_size * N` (`N` records passed to `fit`). -/
theorem C122_limits (hsg : ∀ l g, (sortGroups l g).Perm g) (hull : List ℚ → Option ℚ) (pv : ℚ → ℝ → ℕ → ℚ → ℝ → ℕ → ℝ) (hu : UnitWeights recs)
    (h : fitCatUserParamsC p cutoff sc sortGroups solver us old recs = .ok (old', f))
    (hr : RespectsC (p.forCategorical.cfg hull pv recs.length) solver) (hne : 2 ≤ f.splits.length) :
    (∀ b, p.minBins = some b → b ≤ f.splits.length) ∧ (∀ b, p.maxBins = some b → (f.splits.length : ℤ) ≤ b) ∧
    ∀ k < f.splits.length, ∃ (cnt : ℕ) (m : ℚ) (sd : ℝ), RowShows f.rows k cnt m sd ∧ 0 < cnt ∧
      (∀ q, p.minBinSize = some (.num q) → q * (recs.length : ℚ) ≤ (cnt : ℚ)) ∧
      (∀ q, p.maxBinSize = some (.num q) → (cnt : ℚ) < q * (recs.length : ℚ) + 1) := by
  obtain ⟨pb, o, g, g1, -, g3, g4⟩ := user_numericalC hsg (fun cells hn => hr.last cells hn) hu h hne
  obtain ⟨a, b, c⟩ := C104_limits p.forCategorical hull pv _ _ _ _ _ _ _ g (by rw [userAsNumbers_length]; exact hr) g1
    (fun h0 => by rw [h0] at g3; simp at g3; omega)
  rw [userAsNumbers_length] at c
  refine ⟨fun v hv => ?_, fun v hv => ?_, fun k hk => ?_⟩
  · have := a v hv; omega
  · have := b v hv; omega
  · obtain ⟨cnt, m, sd, e1, e2⟩ := c k (by omega)
    exact ⟨cnt, m, sd, (rowShows_congr (g4 k hk)).1 e1, e2⟩

/-- C122: with any `monotonic_trend` except None the Means of the bins before "others" ascend, truncated towards zero to six digits. -/
theorem C122_trend (hsg : ∀ l g, (sortGroups l g).Perm g) (hull : List ℚ → Option ℚ) (pv : ℚ → ℝ → ℕ → ℚ → ℝ → ℕ → ℝ) (hu : UnitWeights recs)
    (h : fitCatUserParamsC p cutoff sc sortGroups solver us old recs = .ok (old', f))
    (hr : RespectsC (p.forCategorical.cfg hull pv recs.length) solver) (ht : p.trend ≠ .none) (hne : 2 ≤ f.splits.length) (cnt : ℕ → ℕ) (m : ℕ → ℚ)
    (sd : ℕ → ℝ) (hm : ∀ k < f.splits.length, RowShows f.rows k (cnt k) (m k) (sd k)) (j k : ℕ) (hjk : j < k) (hk : k < f.splits.length) :
    truncRat (m j * 1000000) ≤ truncRat (m k * 1000000) := by
  obtain ⟨pb, o, g, g1, -, g3, g4⟩ := user_numericalC hsg (fun cells hn => hr.last cells hn) hu h hne
  have := C104_trend p.forCategorical hull pv _ _ _ _ _ _ _ g (by rw [userAsNumbers_length]; exact hr) g1
    (fun h0 => by rw [h0] at g3; simp at g3; omega) cnt m sd
    (fun k hk => (rowShows_congr (g4 k (by omega))).2 (hm k (by omega)))
  rw [catC_trend ht] at this
  exact this j k (Nat.zero_le _) hjk (by omega)

/-- C122: `min_mean_diff`: the Means of neighbouring bins before "others" differ at least by this much. -/
theorem C122_min_mean_diff (hsg : ∀ l g, (sortGroups l g).Perm g) (hull : List ℚ → Option ℚ) (pv : ℚ → ℝ → ℕ → ℚ → ℝ → ℕ → ℝ) (hu : UnitWeights recs)
    (h : fitCatUserParamsC p cutoff sc sortGroups solver us old recs = .ok (old', f))
    (hr : RespectsC (p.forCategorical.cfg hull pv recs.length) solver) (cnt : ℕ → ℕ) (m : ℕ → ℚ) (sd : ℕ → ℝ)
    (hm : ∀ k < f.splits.length, RowShows f.rows k (cnt k) (m k) (sd k)) (v : ℚ) (hv : p.minMeanDiff = .num v) (k : ℕ)
    (hk : k + 1 < f.splits.length) : v ≤ |m k - m (k + 1)| := by
  obtain ⟨pb, o, g, g1, -, g3, g4⟩ := user_numericalC hsg (fun cells hn => hr.last cells hn) hu h (by omega)
  exact C104_min_mean_diff p.forCategorical hull pv _ _ _ _ _ _ _ g (by rw [userAsNumbers_length]; exact hr) g1 cnt m sd
    (fun k hk => (rowShows_congr (g4 k (by omega))).2 (hm k (by omega))) v hv k (by omega)

/-- C122: `max_pvalue`: the p-value of the t-test of two neighbouring bins (any two bins with policy "all") before "others" is at most
`max_pvalue`. -/
theorem C122_pvalues (hsg : ∀ l g, (sortGroups l g).Perm g) (hull : List ℚ → Option ℚ) (pv : ℚ → ℝ → ℕ → ℚ → ℝ → ℕ → ℝ) (hu : UnitWeights recs)
    (h : fitCatUserParamsC p cutoff sc sortGroups solver us old recs = .ok (old', f))
    (hr : RespectsC (p.forCategorical.cfg hull pv recs.length) solver) (cnt : ℕ → ℕ) (m : ℕ → ℚ) (sd : ℕ → ℝ)
    (hm : ∀ k < f.splits.length, RowShows f.rows k (cnt k) (m k) (sd k)) (v : ℚ) (hv : p.maxPvalue = some (.num v)) (j k : ℕ)
    (hjk : j < k) (hk : k < f.splits.length) (hpol : p.policy = .consecutive → k = j + 1) :
    pv (m j) (sd j) (cnt j) (m k) (sd k) (cnt k) ≤ (v : ℝ) := by
  obtain ⟨pb, o, g, g1, -, g3, g4⟩ := user_numericalC hsg (fun cells hn => hr.last cells hn) hu h (by omega)
  exact C104_pvalues p.forCategorical hull pv _ _ _ _ _ _ _ g (by rw [userAsNumbers_length]; exact hr) g1 cnt m sd
    (fun k hk => (rowShows_congr (g4 k (by omega))).2 (hm k (by omega))) v hv j k hjk (by omega) hpol

end OptBinning
