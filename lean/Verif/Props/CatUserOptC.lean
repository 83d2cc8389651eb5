import Verif.Props.CatUserParamsC
import Verif.Props.CatParamsC
import Verif.Props.FitOptimalC

/-!
# C122: optimality of the merge of groups of categories
-/
namespace OptBinning
open OptBinning.Spec

variable {κ : Type} [LinearOrder κ] {p : ParamsC} {cutoff : Option XQ} {sc : SpecialCodes κ} {sortGroups : List (RecC κ) → List (List κ) → List (List κ)}
  {solver : SolverC} {us : List (List κ)} {old old' : MissingStats} {recs : List (RecC κ)} {f : CatUserFittedC κ}

open Classical in
theorem groupedRecsC_eq (hsg : ∀ l g, (sortGroups l g).Perm g) (h : fitCategoricalUserC sc sortGroups solver us old recs = .ok (old', f)) :
    ((splitDataC sc none recs).clean.filter fun r => !r.inCats f.others).map (RecC.encodeGroup f.groups) = groupedRecsC sc f.groups recs := by
  obtain ⟨hperm, hn, hpos, hmo⟩ := userC_groups hsg h
  have hmain : (splitDataC sc none recs).clean.filter (fun r => !r.inCats f.others) =
      recs.filter fun r => decide (IsBinnedC sc r ∧ ∃ v, r.x = some v ∧ ∃ g ∈ f.groups, v ∈ g) := by
    show (recs.filter _).filter _ = _
    rw [List.filter_filter]
    refine List.filter_congr fun r hr => ?_
    rw [Bool.eq_iff_iff, decide_eq_true_iff]
    have := userC_main (r := r) hsg h
    have hcl : (splitDataC sc none recs).clean = recs.filter fun r => !r.isMissing && !r.isSpecial sc := rfl
    rw [hcl, List.filter_filter, List.mem_filter] at this
    constructor
    · intro h1
      obtain ⟨-, h2, v, hv, q, g, hq, hvg⟩ := this.1 ⟨hr, h1⟩
      exact ⟨h2, v, hv, g, List.mem_of_getElem? hq, hvg⟩
    · rintro ⟨h2, v, hv, g, hg, hvg⟩
      obtain ⟨q, hq⟩ := List.mem_iff_getElem?.1 hg
      exact (this.2 ⟨hr, h2, v, hv, q, g, hq, hvg⟩).2
  unfold groupedRecsC
  rw [hmain]
  refine List.map_congr_left fun r hr => ?_
  have h1 := (List.mem_filter.1 hr).2
  rw [decide_eq_true_iff] at h1
  obtain ⟨-, v, hv, g, hg, hvg⟩ := h1
  obtain ⟨q, hq⟩ := List.mem_iff_getElem?.1 hg
  have hx := userC_code hsg h hv hq hvg
  have hlt : f.groups.findIdx (fun g => decide (v ∈ g)) < f.groups.length :=
    List.findIdx_lt_length_of_exists ⟨g, hg, by simpa using hvg⟩
  have hmem := List.findIdx_getElem (w := hlt)
  rw [decide_eq_true_iff] at hmem
  have := userC_code hsg h hv (List.getElem?_eq_getElem hlt) hmem
  simp only [RecC.encodeGroup] at this ⊢
  rw [this, hv]
  rfl

open Classical in
/-- If every group occurs, no interval between the groups is empty. -/
theorem grouped_filled (hsg : ∀ l g, (sortGroups l g).Perm g) (h3 : fitCategoricalUserC sc sortGroups solver us old recs = .ok (old', f))
    (h2 : 2 ≤ us.length) (ho : ∀ g ∈ us, Occurs sc recs g) :
    CutsFilled (groupedRecsC sc f.groups recs) ((List.range us.length).dropLast.map (· + 1)) := by
  obtain ⟨hperm, hn, hpos, hmo⟩ := userC_groups hsg h3
  have hne : List.range us.length ≠ [] := by simp; rintro rfl; simp at h2
  have hcuts : (List.range us.length).dropLast.map (· + 1) = List.range' 1 (us.length - 1) := by
    rw [List.dropLast_eq_take, List.length_range, List.take_range, Nat.min_eq_left (by omega), List.range'_eq_map_range]
    simp only [Nat.add_comm]
  intro k hk
  have hk' : k < us.length := by simp at hk; omega
  have hkg : k < f.groups.length := by rw [hperm.length_eq]; exact hk'
  obtain ⟨v, hv, r, r1, r2, r3⟩ := ho _ (hperm.mem_iff.1 (List.getElem_mem hkg))
  have hclean : ∀ r ∈ groupedRecsC sc f.groups recs, r.x ≠ none ∧ r.y ≠ none := by
    intro q hq
    unfold groupedRecsC at hq
    obtain ⟨r, hr, rfl⟩ := List.mem_map.1 hq
    have h1 := (List.mem_filter.1 hr).2
    rw [decide_eq_true_iff] at h1
    exact ⟨by simp [h1.1.2.1], h1.1.1⟩
  rw [cutTargets_eq hclean (by rw [hcuts]; exact (List.pairwise_lt_range' (s := 1) (n := us.length - 1)).imp fun h => Nat.le_of_lt h)]
  have hmem : r.encodeGroup f.groups ∈ groupedRecsC sc f.groups recs := by
    rw [← groupedRecsC_eq hsg h3]
    exact List.mem_map_of_mem ((userC_main hsg h3).2 ⟨r1, r2, v, r3, k, _, List.getElem?_eq_getElem hkg, hv⟩)
  have hx := userC_code hsg h3 r3 (List.getElem?_eq_getElem hkg) hv
  have hdk : digitize true (List.range us.length) (some k) = k := by
    exact digitize_right_idx List.pairwise_lt_range (List.getElem?_range hk')
  have hd : digitize false ((List.range us.length).dropLast.map (· + 1)) (some k) = k := by
    rw [digitize_cuts List.pairwise_lt_range hne (by rw [hdk, List.length_range]; exact hk'), hdk]
  intro hnil
  have hy := r2.1
  obtain ⟨y, hy'⟩ := Option.ne_none_iff_exists'.1 hy
  have : y ∈ List.filterMap RecC.y ((groupedRecsC sc f.groups recs).filter fun r =>
      digitize false ((List.range us.length).dropLast.map (· + 1)) r.x == k) :=
    List.mem_filterMap.2 ⟨_, List.mem_filter.2 ⟨hmem, by rw [hx, hd]; simp⟩, hy'⟩
  rw [hnil] at this
  simp at this

open Classical in
/-- C122: if every group occurs in the training data, the merge of neighbouring groups (by mean) that is returned with status OPTIMAL is optimal:
no other choice `cs` of cut points between the groups which meets the limits, and for which the means rise if a trend is asked for, has a larger
sum of distances between the means of its bins and the overall mean, up to one millionth per bin.  Cut point `i` separates the groups
before position `i` from the others. -/
theorem C122_optimal (hsg : ∀ l g, (sortGroups l g).Perm g) (hull : List ℚ → Option ℚ) (pv : ℚ → ℝ → ℕ → ℚ → ℝ → ℕ → ℝ) (hu : UnitWeights recs)
    (h : fitCatUserParamsC p cutoff sc sortGroups solver us old recs = .ok (old', f))
    (hr : RespectsC (p.forCategorical.cfg hull pv recs.length) solver) (hs : f.status = "OPTIMAL") (h2 : 2 ≤ us.length)
    (ho : ∀ g ∈ us, Occurs sc recs g) (cs : List ℕ) (hcs : cs.Pairwise (· < ·)) (hin : ∀ i ∈ cs, 0 < i ∧ i < us.length)
    (hm : CutsMeetC { p with trend := .none } pv recs.length (groupedRecsC sc f.groups recs) cs)
    (ha : p.trend ≠ .none → MeansRise (groupedRecsC sc f.groups recs) cs 0 (cs.length + 1)) :
    cutDistance (groupedRecsC sc f.groups recs) cs ≤
      cutDistance (groupedRecsC sc f.groups recs) (f.splits.dropLast.map (· + 1)) + ((cs.length : ℚ) + 1) / 1000000 := by
  obtain ⟨-, -, h3⟩ := fitCatUserParamsC_ok h
  obtain ⟨hperm, hn, hpos, hmo⟩ := userC_groups hsg h3
  obtain ⟨pb, o, g, g1, g2, -, -, g5, g6⟩ := user_numericalC_full hsg (fun cells hn => hr.last cells hn) hu h (Or.inr ⟨h2, ho⟩)
  have hpb := g6 ho
  have hne : List.range us.length ≠ [] := by simp; rintro rfl; simp at h2
  have hcuts : (List.range us.length).dropLast.map (· + 1) = List.range' 1 (us.length - 1) := by
    rw [List.dropLast_eq_take, List.length_range, List.take_range, Nat.min_eq_left (by omega), List.range'_eq_map_range]
    simp only [Nat.add_comm]
  have hplain : PlainTrendC p.forCategorical (splitDataC .none none (userAsNumbers sc f.groups f.others recs)).clean := by
    refine Or.inl ?_
    by_cases ht : p.trend = .none
    · exact Or.inl (by simp [ParamsC.forCategorical, TrendArg.categorical, ht])
    · exact Or.inr (Or.inl (catC_trend ht))
  obtain ⟨ps, a, b, c, d⟩ := C105_optimal p.forCategorical hull pv .none none pb solver {} o _ g (fun q hq => by
      unfold userAsNumbers at hq
      obtain ⟨r, hr, rfl⟩ := List.mem_map.1 hq
      split_ifs
      · exact hu r hr
      · rfl) (fun l => by rw [hpb]; simp only; rw [hcuts]; exact (List.pairwise_lt_range' (s := 1) (n := us.length - 1)).imp fun h => Nat.le_of_lt h) hplain
      (by rw [userAsNumbers_length]; exact hr) g1 (g2.trans hs)
  rw [userAsNumbers_clean, groupedRecsC_eq hsg h3, hpb] at c
  rw [userAsNumbers_clean, groupedRecsC_eq hsg h3, userAsNumbers_length, g5] at d
  have hfill := grouped_filled hsg h3 h2 ho
  have hps := c hfill
  refine d cs ?_ (meet_catC hm ha)
  rw [hps, hcuts]
  refine List.sublist_of_subperm_of_pairwise ?_ hcs List.pairwise_lt_range'
  exact List.subperm_of_subset (hcs.imp fun h => h.ne) fun i hi => by
    have := hin i hi
    rw [List.mem_range'_1]
    omega

end OptBinning
