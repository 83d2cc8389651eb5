import Verif.Lemmas.CatUserC
import Verif.Props.CatUser
import Verif.Props.CatParamsC
import Verif.Spec.CatUserC
import Verif.Spec.Piecewise

/-!
# C122: a continuous target and groups of categories given by the user
-/
namespace OptBinning
open OptBinning.Spec

variable {κ : Type} [LinearOrder κ] {sc : SpecialCodes κ} {sortGroups : List (RecC κ) → List (List κ) → List (List κ)} {solver : SolverC}
  {us : List (List κ)} {old old' : MissingStats} {recs : List (RecC κ)} {f : CatUserFittedC κ}

theorem fitCategoricalUserC_unpack (h : fitCategoricalUserC sc sortGroups solver us old recs = .ok (old', f)) :
    us ≠ [] ∧ us.flatten.Nodup ∧
    f.others = ((splitDataC sc none recs).clean.filterMap RecC.x).dedup.filter (fun c => !us.flatten.contains c) ∧
    f.groups = sortGroups ((splitDataC sc none recs).clean.filter fun r => !r.inCats f.others) us ∧
    ∃ special st', specialRows sc (splitDataC sc none recs).special = .ok special ∧
      fitCoreC true solver (((splitDataC sc none recs).clean.filter fun r => !r.inCats f.others).map (RecC.encodeGroup f.groups))
        (if f.others.length = 0 then none else some (summaryC ((splitDataC sc none recs).clean.filter fun r => r.inCats f.others)))
        special (missingRow old (splitDataC sc none recs).missing) {} (List.range f.groups.length) = .ok (st', ⟨f.status, f.splits, f.rows⟩) := by
  unfold fitCategoricalUserC at h
  simp only at h
  by_cases h0 : us.length = 0
  · rw [if_pos h0] at h; cases h
  by_cases h1 : us.flatten.Nodup
  swap
  · rw [if_neg h0, if_pos h1] at h; cases h
  rw [if_neg h0, if_neg (not_not.2 h1)] at h
  split at h
  · cases h
  rename_i special hsp
  split at h
  · cases h
  rename_i q hq
  simp only [Except.ok.injEq, Prod.mk.injEq] at h
  obtain ⟨-, rfl⟩ := h
  exact ⟨fun hc => h0 (by simp [hc]), h1, rfl, rfl, special, q.1, hsp, hq⟩

/-- C122: a fit which succeeds was given at least one group, and no category twice. -/
theorem C122_accepted (h : fitCategoricalUserC sc sortGroups solver us old recs = .ok (old', f)) : us ≠ [] ∧ us.flatten.Nodup :=
  ⟨(fitCategoricalUserC_unpack h).1, (fitCategoricalUserC_unpack h).2.1⟩

/-- C122: the group "others" holds exactly the training categories which are in no group. -/
theorem C122_others (h : fitCategoricalUserC sc sortGroups solver us old recs = .ok (old', f)) (v : κ) :
    v ∈ f.others ↔ IsTrainCategoryC sc recs v ∧ ∀ g ∈ us, v ∉ g := by
  obtain ⟨-, -, ho, -⟩ := fitCategoricalUserC_unpack h
  rw [ho]
  simp only [List.mem_filter, List.mem_dedup, List.mem_filterMap, Bool.not_eq_true', Bool.eq_false_iff, ne_eq, List.contains_iff_mem,
    List.mem_flatten, not_exists, not_and, cleanC_mem]
  refine and_congr_left fun _ => ?_
  unfold IsTrainCategoryC
  exact exists_congr fun r => and_assoc

/-- What the proofs use. -/
theorem userC_groups (hsg : ∀ l g, (sortGroups l g).Perm g) (h : fitCategoricalUserC sc sortGroups solver us old recs = .ok (old', f)) :
    f.groups.Perm us ∧ f.groups.flatten.Nodup ∧
    (∀ v, v ∈ f.groups.flatten ↔ ∃ (p : ℕ) (g : List κ), f.groups[p]? = some g ∧ v ∈ g) ∧
    (∀ v, v ∈ f.others ↔ IsTrainCategoryC sc recs v ∧ v ∉ f.groups.flatten) := by
  obtain ⟨-, hus, -, hg, -⟩ := fitCategoricalUserC_unpack h
  have hperm : f.groups.Perm us := by rw [hg]; exact hsg _ _
  refine ⟨hperm, hperm.flatten.nodup_iff.2 hus, fun v => ?_, fun v => ?_⟩
  · rw [List.mem_flatten]
    constructor
    · rintro ⟨g, hg, hv⟩
      obtain ⟨p, hp, rfl⟩ := List.mem_iff_getElem.1 hg
      exact ⟨p, _, List.getElem?_eq_getElem hp, hv⟩
    · rintro ⟨p, g, hp, hv⟩
      exact ⟨g, List.mem_of_getElem? hp, hv⟩
  · rw [C122_others h, hperm.flatten.mem_iff, List.mem_flatten]
    simp only [not_exists, not_and]

theorem userC_main (hsg : ∀ l g, (sortGroups l g).Perm g) (h : fitCategoricalUserC sc sortGroups solver us old recs = .ok (old', f)) {r : RecC κ} :
    r ∈ (splitDataC sc none recs).clean.filter (fun r => !r.inCats f.others) ↔
      r ∈ recs ∧ IsBinnedC sc r ∧ ∃ v, r.x = some v ∧ ∃ (p : ℕ) (g : List κ), f.groups[p]? = some g ∧ v ∈ g := by
  obtain ⟨-, -, hpos, hmo⟩ := userC_groups hsg h
  rw [List.mem_filter, cleanC_mem, Bool.not_eq_true', Bool.eq_false_iff, Ne, inCatsC_iff]
  constructor
  · rintro ⟨⟨h1, h2⟩, h3⟩
    refine ⟨h1, h2, ?_⟩
    cases hx : r.x with
    | none => exact absurd hx h2.2.1
    | some v =>
      refine ⟨v, rfl, (hpos v).1 ?_⟩
      by_contra hc
      exact h3 ⟨v, (hmo v).2 ⟨⟨r, h1, h2, hx⟩, hc⟩, hx⟩
  · rintro ⟨h1, h2, v, hv, hp⟩
    refine ⟨⟨h1, h2⟩, ?_⟩
    rintro ⟨w, hw, hx⟩
    rw [hv] at hx
    cases hx
    exact ((hmo v).1 hw).2 ((hpos v).2 hp)

theorem userC_code (hsg : ∀ l g, (sortGroups l g).Perm g) (h : fitCategoricalUserC sc sortGroups solver us old recs = .ok (old', f))
    {r : RecC κ} {v : κ} (hx : r.x = some v) {p : ℕ} {g : List κ} (hp : f.groups[p]? = some g) (hv : v ∈ g) :
    (r.encodeGroup f.groups).x = some p := by
  obtain ⟨-, hn, -⟩ := userC_groups hsg h
  simp only [RecC.encodeGroup, hx, code_eq hn hp hv]

/-- The rows of the fit, in terms of the codes. -/
theorem userC_rows (hsg : ∀ l g, (sortGroups l g).Perm g) {sv : SolverCfgC} (hr : RespectsC sv solver) (hu : UnitWeights recs)
    (htwo : ∃ g ∈ us, ∃ g' ∈ us, g ≠ g' ∧ Occurs sc recs g ∧ Occurs sc recs g')
    (h : fitCategoricalUserC sc sortGroups solver us old recs = .ok (old', f)) :
    (∀ r ∈ recs, IsBinnedC sc r → ∀ v, r.x = some v → ∀ (p : ℕ) (g : List κ), f.groups[p]? = some g → v ∈ g →
      digitize true f.splits (some p) < f.splits.length) ∧
    ∃ (special reg : List RowC), specialRows sc (splitDataC sc none recs).special = .ok special ∧
      f.rows = reg ++ ((if f.others.length = 0 then none else
        some (summaryC ((splitDataC sc none recs).clean.filter fun r => r.inCats f.others))).toList ++
        (special ++ [missingRow old (splitDataC sc none recs).missing])) ∧ reg.length = f.splits.length ∧
      ∀ k < f.splits.length, ∃ l : List (RecC ℕ), l.Perm ((((splitDataC sc none recs).clean.filter fun r => !r.inCats f.others).map
        (RecC.encodeGroup f.groups)).filter fun r => digitize true f.splits r.x == k) ∧ reg[k]? = some (cellOf l).row := by
  obtain ⟨hperm, hn, hpos, hmo⟩ := userC_groups hsg h
  obtain ⟨-, -, -, -, special, st', hsp, hcore⟩ := fitCategoricalUserC_unpack h
  have hrec : ∀ g ∈ us, Occurs sc recs g → ∃ r ∈ (splitDataC sc none recs).clean.filter (fun r => !r.inCats f.others), ∃ (p : ℕ) (v : κ),
      r.x = some v ∧ f.groups[p]? = some g ∧ v ∈ g := by
    rintro g hg ⟨v, hv, r, h1, h2, h3⟩
    obtain ⟨p, hp, rfl⟩ := List.mem_iff_getElem.1 (hperm.mem_iff.2 hg)
    exact ⟨r, (userC_main hsg h).2 ⟨h1, h2, v, h3, p, _, List.getElem?_eq_getElem hp, hv⟩, p, v, h3, List.getElem?_eq_getElem hp, hv⟩
  obtain ⟨g, hg, g', hg', hgg, ho, ho'⟩ := htwo
  obtain ⟨r1, hr1, p1, v1, a1, b1, c1⟩ := hrec g hg ho
  obtain ⟨r2, hr2, p2, v2, a2, b2, c2⟩ := hrec g' hg' ho'
  obtain ⟨-, hlt, reg, hrows, hlen, hreg⟩ := fitCoreC_rows_user (fun cells hn => hr.last cells hn)
    (by
      intro q hq
      obtain ⟨r, hr, rfl⟩ := List.mem_map.1 hq
      obtain ⟨-, -, v, hv, p, g, hp, hvg⟩ := (userC_main hsg h).1 hr
      exact ⟨p, userC_code hsg h hv hp hvg, List.mem_range.2 (List.getElem?_eq_some_iff.1 hp).1⟩)
    (by
      intro q hq
      obtain ⟨r, hr, rfl⟩ := List.mem_map.1 hq
      exact hu r ((userC_main hsg h).1 hr).1)
    List.pairwise_lt_range
    ⟨_, List.mem_map_of_mem hr1, _, List.mem_map_of_mem hr2, by
      rw [userC_code hsg h a1 b1 c1, userC_code hsg h a2 b2 c2]
      intro e
      simp only [Option.some.injEq] at e
      rw [e, b2] at b1
      exact hgg (Option.some.inj b1).symm⟩ hcore
  refine ⟨fun r h1 h2 v hv p g hp hvg => ?_, special, reg, hsp, hrows, hlen, hreg⟩
  have := hlt _ (List.mem_map_of_mem (f := RecC.encodeGroup f.groups) ((userC_main hsg h).2 ⟨h1, h2, v, hv, p, g, hp, hvg⟩))
  rw [userC_code hsg h hv hp hvg] at this
  exact this

theorem mem_bins_userC (f : CatUserFittedC κ) (v : κ) (k : ℕ) :
    v ∈ f.bins.getD k [] ↔
      (k < f.splits.length ∧ ∃ p g, f.groups[p]? = some g ∧ v ∈ g ∧ digitize true f.splits (some p) = k) ∨
      (k = f.splits.length ∧ v ∈ f.others) := mem_bins_user ⟨f.status, f.splits, f.groups, f.others, [], []⟩ v k

theorem bins_length_userC (f : CatUserFittedC κ) : f.bins.length = f.splits.length + if f.others.length = 0 then 0 else 1 :=
  bins_length_user ⟨f.status, f.splits, f.groups, f.others, [], []⟩

/-- C122: a bin before "others" consists of whole groups: with a category it holds every category of the same group. -/
theorem C122_whole_groups (hsg : ∀ l g, (sortGroups l g).Perm g) (h : fitCategoricalUserC sc sortGroups solver us old recs = .ok (old', f))
    {g : List κ} (hg : g ∈ us) {v w : κ} (hv : v ∈ g) (hw : w ∈ g) (k : ℕ) (hm : v ∈ f.bins.getD k []) : w ∈ f.bins.getD k [] := by
  obtain ⟨hperm, hn, hpos, hmo⟩ := userC_groups hsg h
  obtain ⟨p, hp, rfl⟩ := List.mem_iff_getElem.1 (hperm.mem_iff.2 hg)
  have hp' := List.getElem?_eq_getElem hp
  rcases (mem_bins_userC f v k).1 hm with ⟨hk, q, g', hq, hvg, hd⟩ | ⟨-, ho⟩
  · rw [← pos_unique hn hp' hq hv hvg] at hd
    exact (mem_bins_userC f w k).2 (Or.inl ⟨hk, p, _, hp', hw, hd⟩)
  · exact absurd ((hpos v).2 ⟨p, _, hp', hv⟩) ((hmo v).1 ho).2

/-- C122: if at least two groups occur in the training data, every category of the training data is in exactly one bin; "others", if it is not
empty, is the last bin. -/
theorem C122_partition (hsg : ∀ l g, (sortGroups l g).Perm g) {sv : SolverCfgC} (hr : RespectsC sv solver) (hu : UnitWeights recs)
    (htwo : ∃ g ∈ us, ∃ g' ∈ us, g ≠ g' ∧ Occurs sc recs g ∧ Occurs sc recs g')
    (h : fitCategoricalUserC sc sortGroups solver us old recs = .ok (old', f)) :
    (∀ v, IsTrainCategoryC sc recs v → ∃ k < f.bins.length, v ∈ f.bins.getD k [] ∧ ∀ j, v ∈ f.bins.getD j [] → j = k) ∧
    (f.others ≠ [] → ∀ v, v ∈ f.bins.getD (f.bins.length - 1) [] ↔ v ∈ f.others) := by
  obtain ⟨hperm, hn, hpos, hmo⟩ := userC_groups hsg h
  obtain ⟨hlt, -⟩ := userC_rows hsg hr hu htwo h
  constructor
  · intro v htr
    by_cases hv : v ∈ f.groups.flatten
    · obtain ⟨p, g, hp, hvg⟩ := (hpos v).1 hv
      obtain ⟨r, h1, h2, h3⟩ := htr
      have hd := hlt r h1 h2 v h3 p g hp hvg
      refine ⟨digitize true f.splits (some p), by rw [bins_length_userC]; omega, ?_, ?_⟩
      · exact (mem_bins_userC _ _ _).2 (Or.inl ⟨hd, p, g, hp, hvg, rfl⟩)
      · intro j hj
        rcases (mem_bins_userC _ _ _).1 hj with ⟨-, q, g', hq, hvg', rfl⟩ | ⟨-, hvo⟩
        · rw [pos_unique hn hp hq hvg hvg']
        · exact absurd hv ((hmo v).1 hvo).2
    · have ho : v ∈ f.others := (hmo v).2 ⟨htr, hv⟩
      have h0 : ¬ f.others.length = 0 := by
        intro h; rw [List.length_eq_zero_iff.1 h] at ho; simp at ho
      refine ⟨f.splits.length, by rw [bins_length_userC, if_neg h0]; omega, (mem_bins_userC _ _ _).2 (Or.inr ⟨rfl, ho⟩), ?_⟩
      intro j hj
      rcases (mem_bins_userC _ _ _).1 hj with ⟨-, q, g', hq, hvg', rfl⟩ | ⟨hj, -⟩
      · exact absurd ((hpos v).2 ⟨q, g', hq, hvg'⟩) hv
      · exact hj
  · intro ho v
    have h0 : ¬ f.others.length = 0 := fun h => ho (List.length_eq_zero_iff.1 h)
    have hb : f.bins.length - 1 = f.splits.length := by rw [bins_length_userC, if_neg h0]; omega
    rw [hb, mem_bins_userC]
    constructor
    · rintro (⟨h, -⟩ | ⟨-, h⟩)
      · omega
      · exact h
    · exact fun h => Or.inr ⟨rfl, h⟩

theorem filterMap_encodeGroup (groups : List (List κ)) (l : List (RecC κ)) (P : RecC ℕ → Bool) :
    ((l.map (RecC.encodeGroup groups)).filter P).filterMap RecC.y = (l.filter fun r => P (r.encodeGroup groups)).filterMap RecC.y := by
  rw [List.filter_map, List.filterMap_map]
  rfl

open Classical in
/-- C122: the rows of the table: if at least two groups occur in the training data, row `k` describes the targets of the training records whose
category is in bin `k` ("others" included). -/
theorem C122_rows (hsg : ∀ l g, (sortGroups l g).Perm g) {sv : SolverCfgC} (hr : RespectsC sv solver) (hu : UnitWeights recs)
    (htwo : ∃ g ∈ us, ∃ g' ∈ us, g ≠ g' ∧ Occurs sc recs g ∧ Occurs sc recs g')
    (h : fitCategoricalUserC sc sortGroups solver us old recs = .ok (old', f)) (k : ℕ) (hk : k < f.bins.length) :
    ∃ row, f.rows[k]? = some row ∧ Summarises (groupTargets sc recs (f.bins.getD k [])) row.cnt row.sum row.var row.mn row.mx row.zeros := by
  obtain ⟨hperm, hn, hpos, hmo⟩ := userC_groups hsg h
  obtain ⟨-, special, reg, -, hrows, hlen, hreg⟩ := userC_rows hsg hr hu htwo h
  have hbl := bins_length_userC f
  have hcl : (splitDataC sc none recs).clean = recs.filter fun r => !r.isMissing && !r.isSpecial sc := rfl
  have hclean : ∀ r ∈ (splitDataC sc none recs).clean, r.y ≠ none ∧ r.w = 1 := fun r hr => by
    rw [cleanC_mem] at hr
    exact ⟨hr.2.1, hu r hr.1⟩
  rcases Nat.lt_or_ge k f.splits.length with hk1 | hk1
  · obtain ⟨l, hp, hrow⟩ := hreg k hk1
    have hpl : PlainC l := by
      constructor <;> intro q hq
      all_goals
        obtain ⟨r, hr, rfl⟩ := List.mem_map.1 (List.mem_filter.1 (hp.subset hq)).1
        have := hclean r (List.mem_of_mem_filter hr)
      exacts [this.1, this.2]
    refine ⟨(cellOf l).row, by rw [hrows, List.getElem?_append_left (by omega)]; exact hrow, ?_⟩
    have hperm2 : (ysOf l).Perm (groupTargets sc recs (f.bins.getD k [])) := by
      refine (hp.filterMap RecC.y).trans (List.Perm.of_eq ?_)
      rw [filterMap_encodeGroup, hcl, List.filter_filter, List.filter_filter]
      unfold groupTargets
      congr 1
      refine List.filter_congr fun r hrr => ?_
      rw [Bool.eq_iff_iff, decide_eq_true_eq]
      have key := userC_main hsg h (r := r)
      rw [hcl, List.filter_filter, List.mem_filter] at key
      constructor
      · intro hb
        simp only [Bool.and_eq_true] at hb
        obtain ⟨-, h2, v, hv, p, g, hp, hvg⟩ := key.1 ⟨hrr, by simp only [Bool.and_eq_true]; tauto⟩
        refine ⟨h2, v, (mem_bins_userC _ _ _).2 (Or.inl ⟨hk1, p, g, hp, hvg, ?_⟩), hv⟩
        have := hb.1
        rw [userC_code hsg h hv hp hvg, beq_iff_eq] at this
        exact this.1
      · rintro ⟨h2, v, hvb, hv⟩
        rcases (mem_bins_userC _ _ _).1 hvb with ⟨-, p, g, hp, hvg, hd⟩ | ⟨hj, -⟩
        · have := (key.2 ⟨hrr, h2, v, hv, p, g, hp, hvg⟩).2
          simp only [Bool.and_eq_true] at this ⊢
          refine ⟨⟨?_, this.1⟩, this.2⟩
          rw [userC_code hsg h hv hp hvg, beq_iff_eq]
          exact hd
        · omega
    exact (cellOf_summarises hpl).perm hperm2
  · have ho : f.others.length ≠ 0 := fun h0 => by rw [if_pos h0] at hbl; omega
    have hk2 : k = f.splits.length := by rw [if_neg ho] at hbl; omega
    have hpl : PlainC ((splitDataC sc none recs).clean.filter fun r => r.inCats f.others) :=
      ⟨fun q hq => (hclean q (List.mem_filter.1 hq).1).1, fun q hq => (hclean q (List.mem_filter.1 hq).1).2⟩
    refine ⟨summaryC ((splitDataC sc none recs).clean.filter fun r => r.inCats f.others), ?_, ?_⟩
    · rw [hrows, List.getElem?_append_right (by omega), hlen, hk2, Nat.sub_self, if_neg ho]
      rfl
    · have key := summaryC_summarises hpl
      have : ysOf ((splitDataC sc none recs).clean.filter fun r => r.inCats f.others) = groupTargets sc recs (f.bins.getD k []) := by
        rw [hcl, List.filter_filter]
        unfold groupTargets ysOf
        congr 1
        refine List.filter_congr fun r _ => ?_
        rw [Bool.eq_iff_iff, Bool.and_eq_true, isBinnedC_iff, decide_eq_true_eq, inCatsC_iff, and_comm]
        refine and_congr_right fun _ => exists_congr fun v => and_congr_left fun _ => ?_
        rw [mem_bins_userC]
        constructor
        · exact fun hv => Or.inr ⟨hk2, hv⟩
        · rintro (⟨a, -⟩ | ⟨-, a⟩)
          · omega
          · exact a
      rw [← this]
      exact key

/-- C122: the table has one row per bin, one per group of special codes and one for missing values. -/
theorem C122_row_count (hsg : ∀ l g, (sortGroups l g).Perm g) {sv : SolverCfgC} (hr : RespectsC sv solver) (hu : UnitWeights recs)
    (hk : KnownTargetsC recs) (htwo : ∃ g ∈ us, ∃ g' ∈ us, g ≠ g' ∧ Occurs sc recs g ∧ Occurs sc recs g')
    (h : fitCategoricalUserC sc sortGroups solver us old recs = .ok (old', f)) : f.rows.length = f.bins.length + nGroups sc + 1 := by
  obtain ⟨-, special, reg, hsp, hrows, hlen, -⟩ := userC_rows hsg hr hu htwo h
  have hpl : PlainC recs := ⟨hk, hu⟩
  have hsl := (specialRows_spec (hpl.subset List.filter_sublist.subset) hsp).1
  have hgc : sc.count = nGroups sc := by cases sc <;> rfl
  rw [hrows, ← hgc, bins_length_userC]
  split_ifs <;> simp [hlen, hsl] <;> omega

/-- C122, finding: if all listed categories of the training data belong to one group, the fit succeeds, but the records of this group are in no row
of the table: the table starts with the row "others" or the special rows. -/
theorem C122_single_group_lost (hsg : ∀ l g, (sortGroups l g).Perm g) (hu : UnitWeights recs) {g : List κ} (hg : g ∈ us)
    (hone : ∀ g' ∈ us, Occurs sc recs g' → g' = g) (h : fitCategoricalUserC sc sortGroups solver us old recs = .ok (old', f)) :
    Occurs sc recs g ∧ (∀ v ∈ g, v ∈ f.bins.getD 0 []) ∧ ∃ special, specialRows sc (splitDataC sc none recs).special = .ok special ∧
      f.rows = (if f.others.length = 0 then [] else [summaryC ((splitDataC sc none recs).clean.filter fun r => r.inCats f.others)]) ++
        special ++ [missingRow old (splitDataC sc none recs).missing] := by
  obtain ⟨hperm, hn, hpos, hmo⟩ := userC_groups hsg h
  obtain ⟨hne, -, -, -, special, st', hsp, hcore⟩ := fitCategoricalUserC_unpack h
  have hgl : f.groups.length ≠ 0 := by rw [hperm.length_eq]; exact fun hc => hne (List.length_eq_zero_iff.1 hc)
  obtain ⟨hc, pb, hpb, -, hcase⟩ := fitCoreC_user_cases (by simpa using hgl) hcore
  obtain ⟨p, hp, hpg⟩ := List.mem_iff_getElem.1 (hperm.mem_iff.2 hg)
  have hp' : f.groups[p]? = some g := by rw [List.getElem?_eq_getElem hp, hpg]
  -- every record has code `p`
  have hcode : ∀ q ∈ ((splitDataC sc none recs).clean.filter fun r => !r.inCats f.others).map (RecC.encodeGroup f.groups),
      q.x = some p ∧ Occurs sc recs g := by
    intro q hq
    obtain ⟨r, hr, rfl⟩ := List.mem_map.1 hq
    obtain ⟨h1, h2, v, hv, p', g', hp2, hvg⟩ := (userC_main hsg h).1 hr
    have hocc : Occurs sc recs g' := ⟨v, hvg, r, h1, h2, hv⟩
    have := hone g' (hperm.mem_iff.1 (List.mem_of_getElem? hp2)) hocc
    subst this
    exact ⟨by rw [userC_code hsg h hv hp' hvg], hocc⟩
  obtain ⟨q, hq⟩ := List.exists_mem_of_ne_nil _ hc
  obtain ⟨hsub, h2, h3, h4⟩ := computePrebinsC_spec _ _ _ _ _ hpb
  have hsp' : pb.splits.Pairwise (· < ·) := List.pairwise_lt_range.sublist hsub
  have hu' : UnitWeights (((splitDataC sc none recs).clean.filter fun r => !r.inCats f.others).map (RecC.encodeGroup f.groups)) := by
    intro q hq
    obtain ⟨r, hr, rfl⟩ := List.mem_map.1 hq
    exact hu r ((userC_main hsg h).1 hr).1
  have hpm : p ∈ pb.splits := computePrebinsC_keeps hu' hq (hcode q hq).1 _ _ _ List.pairwise_lt_range (List.mem_range.2 hp) hpb
  -- no other split survives
  have honly : ∀ i (hi : i < pb.splits.length), pb.splits[i] = p := by
    intro i hi
    by_contra hcon
    refine h4 ((prebinCells true (prebinNumber true pb.splits) pb.splits _)[i]'(by simpa [prebinCells, prebinNumber] using hi))
      (by rw [h3]; exact List.getElem_mem _) ?_
    have hcell : (prebinCells true (prebinNumber true pb.splits) pb.splits
        (((splitDataC sc none recs).clean.filter fun r => !r.inCats f.others).map (RecC.encodeGroup f.groups)))[i]'(by simpa [prebinCells, prebinNumber] using hi) =
        cellOf ((((splitDataC sc none recs).clean.filter fun r => !r.inCats f.others).map (RecC.encodeGroup f.groups)).filter
          fun r => digitize true pb.splits r.x == i) := by simp [prebinCells]
    rw [hcell]
    have : ((((splitDataC sc none recs).clean.filter fun r => !r.inCats f.others).map (RecC.encodeGroup f.groups)).filter
        fun r => digitize true pb.splits r.x == i) = [] := by
      rw [List.filter_eq_nil_iff]
      intro r hr
      rw [(hcode r hr).1, beq_iff_eq]
      obtain ⟨j, hj, hjp⟩ := List.mem_iff_getElem.1 hpm
      have hd := digitize_right_idx hsp' (List.getElem?_eq_getElem hj)
      rw [hjp] at hd
      rw [hd]
      rintro rfl
      exact hcon hjp
    rw [this]
    rfl
  have hlen1 : pb.splits.length = 1 := by
    have h0 := List.length_pos_iff.2 h2
    by_contra hcon
    have := List.pairwise_iff_getElem.1 hsp' 0 1 (by omega) (by omega) (by omega)
    rw [honly, honly] at this
    omega
  have hcl : pb.cells.length = 1 := by rw [h3]; simp [prebinCells, prebinNumber, hlen1]
  rcases hcase with ⟨-, e⟩ | ⟨h5, -⟩
  · have e1 : f.splits = pb.splits := congrArg FittedC.splits e
    have e2 : f.rows = _ := congrArg FittedC.rows e
    have hs1 : f.splits = [p] := by
      obtain ⟨a, ha⟩ := List.length_eq_one_iff.1 hlen1
      rw [ha, List.mem_singleton] at hpm
      rw [e1, ha, hpm]
    refine ⟨(hcode q hq).2, fun v hv => (mem_bins_userC _ _ _).2 (Or.inl ⟨by rw [hs1]; simp, p, g, hp', hv, by rw [hs1]; simp [digitize]⟩), special, hsp, ?_⟩
    rw [e2]
    split_ifs <;> simp
  · omega

end OptBinning
