import Verif.Lemmas.CatUser
import Verif.Props.Categorical

/-!
# C07: categorical variables with user groups
-/
set_option linter.unusedSectionVars false
set_option linter.unusedSimpArgs false

namespace OptBinning
open Spec Finset

variable {κ : Type} [LinearOrder κ]

theorem pos_unique {groups : List (List κ)} (hn : groups.flatten.Nodup) {p q : ℕ} {g g' : List κ} {v : κ}
    (h1 : groups[p]? = some g) (h2 : groups[q]? = some g') (hv : v ∈ g) (hv' : v ∈ g') : p = q := by
  obtain ⟨hp, rfl⟩ := List.getElem?_eq_some_iff.1 h1
  obtain ⟨hq, rfl⟩ := List.getElem?_eq_some_iff.1 h2
  have hd := List.pairwise_iff_getElem.1 (List.nodup_flatten.1 hn).2
  by_contra hne
  rcases Nat.lt_or_gt_of_ne hne with hlt | hlt
  · exact hd p q hp hq hlt hv hv'
  · exact hd q p hq hp hlt hv' hv

theorem code_eq {groups : List (List κ)} (hn : groups.flatten.Nodup) {p : ℕ} {g : List κ} {v : κ}
    (h1 : groups[p]? = some g) (hv : v ∈ g) : transformCatClean groups id 0 (some v) = p := by
  obtain ⟨hp, hg⟩ := List.getElem?_eq_some_iff.1 h1
  refine transformCatClean_known groups id 0 v hp (by simpa [List.getD, h1] using hv) fun j hj => ?_
  by_cases hjl : j < groups.length
  · have h2 : groups[j]? = some groups[j] := List.getElem?_eq_getElem hjl
    exact pos_unique hn h2 h1 (by simpa [List.getD, h2] using hj) hv
  · rw [List.getD_eq_default _ _ (by omega)] at hj
    simp at hj

theorem mem_groupCodes' (right : Bool) (nb : ℕ) (splits : List ℤ) (groups : List (List κ)) (v : κ) (k : ℕ) :
    v ∈ ((groupCodes right nb splits groups).map List.flatten).getD k [] ↔
      k < nb ∧ ∃ (p : ℕ) (g : List κ), groups[p]? = some g ∧ v ∈ g ∧ digitize right splits (some ((p : ℕ) : ℤ)) = k := by
  by_cases hk : k < nb
  · have : ((groupCodes right nb splits groups).map List.flatten).getD k [] =
        ((groups.zipIdx.filter fun p => digitize right splits (some (p.2 : ℤ)) == k).map Prod.fst).flatten := by
      simp [groupCodes, List.getD, hk]
    rw [this]
    simp only [List.mem_flatten, List.mem_map, List.mem_filter, Prod.exists, beq_iff_eq, hk, true_and]
    constructor
    · rintro ⟨g, ⟨a, p, ⟨h1, h2⟩, rfl⟩, hv⟩
      exact ⟨p, a, List.mem_zipIdx_iff_getElem?.1 h1, hv, h2⟩
    · rintro ⟨p, g, h1, hv, h2⟩
      exact ⟨g, ⟨g, p, ⟨List.mem_zipIdx_iff_getElem?.2 h1, h2⟩, rfl⟩, hv⟩
  · simp [groupCodes, List.getD, hk]

theorem digitize_cast (splits : List ℕ) (p : ℕ) :
    digitize true (splits.map fun n => ((n : ℕ) : ℤ)) (some (p : ℤ)) = digitize true splits (some p) := by
  simp only [digitize, List.countP_map, if_true]
  congr 1
  funext s
  simp

theorem mem_bins_user (f : CatUserFitted κ) (v : κ) (k : ℕ) :
    v ∈ f.bins.getD k [] ↔
      (k < f.splits.length ∧ ∃ p g, f.groups[p]? = some g ∧ v ∈ g ∧ digitize true f.splits (some p) = k) ∨
      (k = f.splits.length ∧ v ∈ f.others) := by
  have hl : ((groupCodes true f.splits.length (f.splits.map fun n => ((n : ℕ) : ℤ)) f.groups).map List.flatten).length =
      f.splits.length := by rw [List.length_map, length_groupCodes]
  unfold CatUserFitted.bins
  rcases Nat.lt_or_ge k f.splits.length with hk | hk
  · rw [List.getD_append _ _ _ _ (by rw [hl]; exact hk), mem_groupCodes']
    simp only [digitize_cast, hk, true_and, show ¬ k = f.splits.length by omega, false_and, or_false]
  · rw [List.getD_append_right _ _ _ _ (by rw [hl]; exact hk), hl]
    constructor
    · intro h
      right
      split_ifs at h with h0
      · simp at h
      · rcases Nat.eq_or_lt_of_le hk with h1 | h1
        · rw [← h1] at h; simp at h; exact ⟨h1.symm, h⟩
        · obtain ⟨m, hm⟩ := Nat.exists_eq_succ_of_ne_zero (show k - f.splits.length ≠ 0 by omega)
          rw [hm] at h; simp at h
    · rintro (⟨h1, -⟩ | ⟨rfl, h1⟩)
      · omega
      · have h0 : ¬ f.others.length = 0 := by
          intro h; rw [List.length_eq_zero_iff.1 h] at h1; simp at h1
        simp [h0, h1]

theorem bins_length_user (f : CatUserFitted κ) :
    f.bins.length = f.splits.length + if f.others.length = 0 then 0 else 1 := by
  unfold CatUserFitted.bins
  rw [List.length_append, List.length_map, length_groupCodes]
  split_ifs <;> rfl

theorem fitCategoricalUser_unpack {cfg : PrebinCfg} {sc : SpecialCodes κ}
    {sortGroups : List (Rec κ) → List (List κ) → List (List κ)} {solver : Solver} {us : List (List κ)}
    {recs : List (Rec κ)} {f : CatUserFitted κ}
    (h : fitCategoricalUser cfg sc sortGroups solver us recs = .ok f) :
    us.flatten.Nodup ∧
    f.others = ((splitData sc {} recs).clean.filterMap Rec.x).dedup.filter (fun c => !us.flatten.contains c) ∧
    f.groups = sortGroups ((splitData sc {} recs).clean.filter fun r => !r.inCats f.others) us ∧
    ∃ st', fitCore { cfg with catUser := true } solver
      (((splitData sc {} recs).clean.filter fun r => !r.inCats f.others).map (Rec.encodeGroup f.groups))
      (fun event => if f.others.length = 0 then none else
        some (truncWeight (((splitData sc {} recs).clean.filter fun r => r.inCats f.others).filter
          fun q => q.isEvent == event)))
      (specialCounts sc (splitData sc {} recs).special)
      (fun event => truncWeight ((splitData sc {} recs).missing.filter fun q => q.isEvent == event)) {}
      (List.range f.groups.length) =
      .ok (st', ⟨f.status, f.splits, f.nonevent, f.event⟩) := by
  simp only [fitCategoricalUser, bind, Except.bind, pure, Except.pure] at h
  by_cases h0 : us.length = 0
  · rw [if_pos h0] at h; cases h
  by_cases h1 : us.flatten.Nodup
  · rw [if_neg h0] at h
    simp only [h1, not_true, if_false] at h
    split at h
    · cases h
    · rename_i r hr
      simp only [Except.ok.injEq] at h
      subst h
      exact ⟨h1, rfl, rfl, r.1, hr⟩
  · rw [if_neg h0] at h
    simp only [h1, not_false_iff, if_true] at h
    cases h

/-- C07, full statement: after fitting a categorical variable with user groups, the rows of the table are the histogram
of `transform(metric="indices")` over all training records; in particular no record of a listed category is lost.

Proved here under the additional hypothesis that the group sorted last (a group of highest event rate) and another group
contain records of both classes; missing is everything else, where the statement is false: see
`C07_pure_last_group_lost` and `C07_single_group_lost`. -/
theorem C07_histogram_partial {cfg : PrebinCfg} {sc : SpecialCodes κ}
    {sortGroups : List (Rec κ) → List (List κ) → List (List κ)} {solver : Solver} {c : SolverCfg} {us : List (List κ)}
    {recs : List (Rec κ)} {f : CatUserFitted κ} (hsc : ProperCodes sc) (hk : KnownTargets recs) (hw : WholeWeights recs)
    (hsolver : Respects c solver) (hsg : ∀ l g, (sortGroups l g).Perm g)
    (h : fitCategoricalUser cfg sc sortGroups solver us recs = .ok f) {i : ℕ} (hi : i + 1 < f.groups.length)
    (hmi : MixedGroup sc recs (f.groups.getD i [])) (hml : MixedGroup sc recs (f.groups.getD (f.groups.length - 1) []))
    (event : Bool) :
    ((if event then f.event else f.nonevent).length = f.bins.length + sc.count + 1) ∧
    ∀ k : ℕ, (((if event then f.event else f.nonevent).getD k 0 : ℕ) : ℚ) =
      weight recs fun r => r.y = some event ∧
        transformCatIndices f.bins sc none .empirical .empirical [r.x] = [(k : ℤ)] := by
  obtain ⟨hus, ho, hg, st', hcore⟩ := fitCategoricalUser_unpack h
  have hperm : f.groups.Perm us := by rw [hg]; exact hsg _ _
  have hfl : f.groups.flatten.Perm us.flatten := hperm.flatten
  have hn : f.groups.flatten.Nodup := hfl.nodup_iff.2 hus
  set clean := (splitData sc {} recs).clean with hcleandef
  have hcl : ∀ r ∈ clean, r ∈ recs ∧ r.x ≠ none ∧ r.y ≠ none ∧ ¬ IsSpecialValue sc r.x :=
    fun r hr => (C01_groups sc recs r).1.1 hr
  have hmo : ∀ v, v ∈ f.others ↔ (∃ r ∈ clean, r.x = some v) ∧ v ∉ f.groups.flatten := by
    intro v
    rw [ho]
    simp only [List.mem_filter, List.mem_dedup, List.mem_filterMap, Bool.not_eq_true', Bool.eq_false_iff, ne_eq,
      List.contains_iff_mem, hfl.mem_iff]
  -- position of a listed category
  have hpos : ∀ v, v ∈ f.groups.flatten ↔ ∃ (p : ℕ) (g : List κ), f.groups[p]? = some g ∧ v ∈ g := by
    intro v
    rw [List.mem_flatten]
    constructor
    · rintro ⟨g, hg, hv⟩
      obtain ⟨p, hp, rfl⟩ := List.mem_iff_getElem.1 hg
      exact ⟨p, _, List.getElem?_eq_getElem hp, hv⟩
    · rintro ⟨p, g, hp, hv⟩
      exact ⟨g, List.mem_of_getElem? hp, hv⟩
  have hmain : ∀ r ∈ clean.filter (fun r => !r.inCats f.others), ∃ v, r.x = some v ∧
      ∃ (p : ℕ) (g : List κ), f.groups[p]? = some g ∧ v ∈ g := by
    intro r hr
    obtain ⟨h1, h2⟩ := List.mem_filter.1 hr
    cases hx : r.x with
    | none => exact absurd hx (hcl r h1).2.1
    | some v =>
      refine ⟨v, rfl, (hpos v).1 ?_⟩
      by_contra hc
      rw [(inCats_iff _ _).2 ⟨v, (hmo v).2 ⟨⟨r, h1, hx⟩, hc⟩, hx⟩] at h2
      simp at h2
  have hoth : ∀ r ∈ clean.filter (fun r => r.inCats f.others), ∃ v, r.x = some v ∧ v ∈ f.others := by
    intro r hr
    obtain ⟨v, hv, hv'⟩ := (inCats_iff _ _).1 (List.mem_filter.1 hr).2
    exact ⟨v, hv', hv⟩
  have hmixed : ∀ p, p < f.groups.length → MixedGroup sc recs (f.groups.getD p []) →
      MixedValue ((clean.filter fun r => !r.inCats f.others).map (Rec.encodeGroup f.groups)) p := by
    intro p hp hm e
    obtain ⟨r, hr, v, hv, hx, hs, hy, h0⟩ := hm e
    have h1 : f.groups[p]? = some (f.groups.getD p []) := by simp [List.getD, hp]
    refine ⟨r.encodeGroup f.groups, List.mem_map_of_mem (List.mem_filter.2 ⟨?_, ?_⟩), ?_, ?_, h0⟩
    · exact (C01_groups sc recs r).1.2 ⟨hr, by simp [hx], by simp [hy], hx ▸ hs⟩
    · rw [Bool.not_eq_true', Bool.eq_false_iff, ne_eq, inCats_iff]
      rintro ⟨w, hw, hxw⟩
      rw [hx] at hxw; cases hxw
      exact ((hmo v).1 hw).2 ((hpos v).2 ⟨p, _, h1, hv⟩)
    · simp only [Rec.encodeGroup, hx, code_eq hn h1 hv]
    · simp [Rec.encodeGroup, Rec.isEvent, hy]
  have hcol := fitCore_column_user (cfg := { cfg with catUser := true }) rfl (fun nev ev hn => hsolver.last nev ev hn)
    (by
      intro r hr
      obtain ⟨q, hq, rfl⟩ := List.mem_map.1 hr
      exact hw q (hcl q (List.mem_of_mem_filter hq)).1)
    (List.pairwise_lt_range) (a := i) (b := f.groups.length - 1) (by simp; omega) (by simp; omega) (by omega)
    (hmixed i (by omega) hmi) (hmixed _ (by omega) hml)
    (by
      intro r hr
      obtain ⟨q, hq, rfl⟩ := List.mem_map.1 hr
      obtain ⟨v, hv, p, g, hp, hvg⟩ := hmain q hq
      refine ⟨_, rfl, ?_⟩
      rw [hv, code_eq hn hp hvg]
      have := (List.getElem?_eq_some_iff.1 hp).1
      omega)
    (by intro s hs; have := List.mem_range.1 hs; omega) hcore
  obtain ⟨-, hlast, hcols⟩ := hcol
  obtain ⟨reg, heq, hlen, hreg⟩ := hcols event
  change (if event then f.event else f.nonevent) = _ at heq
  change f.groups.length - 1 ∈ f.splits at hlast
  change reg.length = f.splits.length at hlen
  have hdlt : ∀ p < f.groups.length, digitize true f.splits (some p) < f.splits.length := by
    intro p hp
    simp only [digitize, if_true]
    have hle := List.countP_le_length (p := fun s => decide (s < p)) (l := f.splits)
    rcases Nat.lt_or_ge (f.splits.countP fun s => decide (s < p)) f.splits.length with hlt | hge
    · exact hlt
    · have := List.countP_eq_length.1 (le_antisymm hle hge) _ hlast
      simp only [decide_eq_true_eq] at this
      omega
  -- the bin of a category is unique
  have huniq : ∀ v, (v ∈ f.groups.flatten ∨ v ∈ f.others) →
      ∃ k < f.bins.length, v ∈ f.bins.getD k [] ∧ ∀ j, v ∈ f.bins.getD j [] → j = k := by
    intro v hv
    rcases hv with hv | hv
    · obtain ⟨p, g, hp, hvg⟩ := (hpos v).1 hv
      have hd := hdlt p (List.getElem?_eq_some_iff.1 hp).1
      refine ⟨digitize true f.splits (some p), by rw [bins_length_user]; omega, ?_, ?_⟩
      · exact (mem_bins_user _ _ _).2 (Or.inl ⟨hd, p, g, hp, hvg, rfl⟩)
      · intro j hj
        rcases (mem_bins_user _ _ _).1 hj with ⟨-, q, g', hq, hvg', rfl⟩ | ⟨-, hvo⟩
        · rw [pos_unique hn hp hq hvg hvg']
        · exact absurd hv ((hmo v).1 hvo).2
    · have h0 : ¬ f.others.length = 0 := by
        intro h; rw [List.length_eq_zero_iff.1 h] at hv; simp at hv
      refine ⟨f.splits.length, by rw [bins_length_user]; simp [h0], (mem_bins_user _ _ _).2 (Or.inr ⟨rfl, hv⟩), ?_⟩
      intro j hj
      rcases (mem_bins_user _ _ _).1 hj with ⟨-, q, g', hq, hvg', rfl⟩ | ⟨hj, -⟩
      · exact absurd ((hpos v).2 ⟨q, g', hq, hvg'⟩) ((hmo v).1 hv).2
      · exact hj
  have hidx : ∀ v, (v ∈ f.groups.flatten ∨ v ∈ f.others) → ∀ k : ℕ,
      transformCatClean f.bins (fun i => (i : ℤ)) (-1) (some v) = (k : ℤ) ↔ v ∈ f.bins.getD k [] := by
    intro v hv k
    obtain ⟨i, h1, h2, h3⟩ := huniq v hv
    rw [transformCatClean_known _ _ _ _ h1 h2 h3]
    constructor
    · intro h; rw [Nat.cast_inj] at h; exact h ▸ h2
    · intro h; rw [h3 k h]
  have hscl := specialCounts_length sc (splitData sc {} recs).special event
  set oc : Option ℕ := (if f.others.length = 0 then none else
    some (truncWeight ((clean.filter fun r => r.inCats f.others).filter fun q => q.isEvent == event))) with hoc
  have hocl : oc.toList.length = if f.others.length = 0 then 0 else 1 := by
    rw [hoc]; split_ifs <;> rfl
  have hrl : (reg ++ oc.toList).length = f.bins.length := by
    rw [List.length_append, hlen, hocl, bins_length_user]
  rw [← List.append_assoc] at heq
  refine ⟨by rw [heq, List.length_append, hrl, List.length_append, hscl]; simp; omega, fun k => ?_⟩
  rw [heq, histogram_core hsc hk hw event (nb := f.bins.length)
    (v0 := transformCatClean f.bins (fun i => (i : ℤ)) (-1)) hrl ?_ ?_ k]
  · refine weight_congr fun r _ => ?_
    simp [transformCatIndices, transformCat, MetricOpt.forIndices]
  · intro j hj
    have hsplit : (clean.filter (fun r => !r.inCats f.others) ++ clean.filter fun r => r.inCats f.others).Perm clean :=
      filter_not_perm clean _
    rw [← weight_perm hsplit, weight_append]
    rcases Nat.lt_or_ge j f.splits.length with hj1 | hj1
    · rw [List.getD_append _ _ _ _ (by omega), hreg j]
      rw [weight_eq_zero (a := clean.filter fun r => r.inCats f.others), add_zero]
      · rw [List.filter_map, List.map_map]
        unfold weight
        refine congrArg List.sum (congrArg (List.map Rec.w) (List.filter_congr fun r hr => ?_))
        obtain ⟨v, hv, p, g, hp, hvg⟩ := hmain r hr
        have hy := (hcl r (List.mem_of_mem_filter hr)).2.2.1
        rw [Bool.eq_iff_iff]
        simp only [Function.comp, Bool.and_eq_true, beq_iff_eq, decide_eq_true_eq]
        have e1 : (r.encodeGroup f.groups).isEvent = event ↔ r.y = some event := by
          rw [← isEvent_beq r hy event, beq_iff_eq]; rfl
        rw [e1, hv, hidx v (Or.inl ((hpos v).2 ⟨p, g, hp, hvg⟩)), mem_bins_user]
        have e2 : (r.encodeGroup f.groups).x = some p := by simp [Rec.encodeGroup, hv, code_eq hn hp hvg]
        rw [e2]
        refine and_congr_right fun _ => ?_
        constructor
        · intro h; exact Or.inl ⟨by omega, p, g, hp, hvg, h⟩
        · rintro (⟨-, q, g', hq, hvg', h⟩ | ⟨h, -⟩)
          · rw [pos_unique hn hp hq hvg hvg']; exact h
          · omega
      · rintro r hr ⟨-, hp⟩
        obtain ⟨v, hv, hvo⟩ := hoth r hr
        rw [hv, hidx v (Or.inr hvo), mem_bins_user] at hp
        rcases hp with ⟨-, q, g', hq, hvg', -⟩ | ⟨h, -⟩
        · exact ((hmo v).1 hvo).2 ((hpos v).2 ⟨q, g', hq, hvg'⟩)
        · omega
    · rw [List.getD_append_right _ _ _ _ (by omega), hlen]
      have h0 : ¬ f.others.length = 0 := by
        intro h0
        rw [bins_length_user, if_pos h0] at hj
        omega
      have hj2 : j = f.splits.length := by
        rw [bins_length_user, if_neg h0] at hj
        omega
      rw [hj2, Nat.sub_self, hoc, if_neg h0]
      simp only [Option.toList_some, List.getD_cons_zero]
      rw [truncWeight_weight (fun r hr => hw r (hcl r (List.mem_of_mem_filter hr)).1)]
      rw [weight_eq_zero (a := clean.filter fun r => !r.inCats f.others), zero_add]
      · refine weight_congr fun r hr => ?_
        obtain ⟨v, hv, hvo⟩ := hoth r hr
        have hy := (hcl r (List.mem_of_mem_filter hr)).2.2.1
        rw [isEvent_beq r hy, hv, hidx v (Or.inr hvo), mem_bins_user]
        simp [hvo]
      · rintro r hr ⟨-, hp⟩
        obtain ⟨v, hv, p, g, hpg, hvg⟩ := hmain r hr
        rw [hv, hidx v (Or.inl ((hpos v).2 ⟨p, g, hpg, hvg⟩)), mem_bins_user] at hp
        rcases hp with ⟨h, -⟩ | ⟨-, h⟩
        · omega
        · exact ((hmo v).1 h).2 ((hpos v).2 ⟨p, g, hpg, hvg⟩)
  · intro r hr j hj
    have : ∃ v, r.x = some v ∧ (v ∈ f.groups.flatten ∨ v ∈ f.others) := by
      cases hx : r.x with
      | none => exact absurd hx (hcl r hr).2.1
      | some v =>
        refine ⟨v, rfl, ?_⟩
        by_cases hv : v ∈ f.groups.flatten
        · exact Or.inl hv
        · exact Or.inr ((hmo v).2 ⟨⟨r, hr, hx⟩, hv⟩)
    obtain ⟨v, hv, hvc⟩ := this
    rw [hv, hidx v hvc] at hj
    by_contra hcon
    rw [List.getD_eq_default _ _ (by omega)] at hj
    simp at hj

/-- C07: fit rejects groups in which a category is repeated. -/
theorem C07_repeated_category_rejected (cfg : PrebinCfg) (sc : SpecialCodes κ)
    (sortGroups : List (Rec κ) → List (List κ) → List (List κ)) (solver : Solver) (us : List (List κ))
    (recs : List (Rec κ)) (h : ¬ us.flatten.Nodup) : ∃ e, fitCategoricalUser cfg sc sortGroups solver us recs = .error e := by
  cases hf : fitCategoricalUser cfg sc sortGroups solver us recs with
  | error e => exact ⟨e, rfl⟩
  | ok f => exact absurd (fitCategoricalUser_unpack hf).1 h

/-! ### the claim fails otherwise -/

/-- Categories 1 (rate 1/3), 2 (rate 2/3) and 3 (only events). -/
def exPureRecs : List (Rec ℕ) :=
  [⟨some 1, some false, 1⟩, ⟨some 1, some false, 1⟩, ⟨some 1, some true, 1⟩, ⟨some 2, some false, 1⟩,
   ⟨some 2, some true, 1⟩, ⟨some 2, some true, 1⟩, ⟨some 3, some true, 1⟩, ⟨some 3, some true, 1⟩]

/-- C07, finding: a group without non-events which has the highest event rate disappears: its records are counted in no
row of the table, and its categories are in no bin. -/
theorem C07_pure_last_group_lost : ∃ f : CatUserFitted ℕ,
    fitCategoricalUser {} .none (fun _ g => g) (exSolver fun _ _ => 0) [[1], [2], [3]] exPureRecs = .ok f ∧
    f.event.sum = 3 ∧ weight exPureRecs (fun r => r.y = some true) = 5 ∧ f.bins = [[1], [2]] := by
  have hpc : computePrebins { catUser := true } (((splitData .none {} exPureRecs).clean.filter
      fun r => !r.inCats []).map (Rec.encodeGroup [[1], [2], [3]])) {} [0, 1, 2] =
      .ok ⟨{ nRefinements := 1 }, [0, 1], [2, 1], [1, 2]⟩ := by
    rw [computePrebins]
    have h1 : prebinCounts true 3 [0, 1, 2] (((splitData .none {} exPureRecs).clean.filter
      fun r => !r.inCats []).map (Rec.encodeGroup [[1], [2], [3]])) false = [2, 1, 0] := by decide +kernel
    have h2 : prebinCounts true 3 [0, 1, 2] (((splitData .none {} exPureRecs).clean.filter
      fun r => !r.inCats []).map (Rec.encodeGroup [[1], [2], [3]])) true = [1, 2, 2] := by decide +kernel
    have h3 : prebinCounts true 2 [0, 1] (((splitData .none {} exPureRecs).clean.filter
      fun r => !r.inCats []).map (Rec.encodeGroup [[1], [2], [3]])) false = [2, 1] := by decide +kernel
    have h4 : prebinCounts true 2 [0, 1] (((splitData .none {} exPureRecs).clean.filter
      fun r => !r.inCats []).map (Rec.encodeGroup [[1], [2], [3]])) true = [1, 2] := by decide +kernel
    simp only [prebinNumber, if_true, List.length_cons, List.length_nil, Nat.reduceAdd, h1, h2]
    simp only [pureMask, maskSplits]
    simp [select]
    rw [computePrebins]
    simp [prebinNumber, h3, h4, pureMask]
  have ho : (((splitData .none {} exPureRecs).clean.filterMap Rec.x).dedup.filter
      fun c => !([[1], [2], [3]] : List (List ℕ)).flatten.contains c) = [] := by decide +kernel
  have hs : ∀ e, specialCounts .none (splitData .none {} exPureRecs).special e = [0] := by decide +kernel
  have hm : ∀ e, truncWeight ((splitData .none {} exPureRecs).missing.filter fun q => q.isEvent == e) = 0 := by
    decide +kernel
  have h3 := exSolver_solve (fun _ _ => 0) [2, 1] [1, 2] (by decide)
  refine ⟨⟨"FEASIBLE", [0, 1], [[1], [2], [3]], [], [2, 1, 0, 0], [1, 2, 0, 0]⟩, ?_, rfl, by decide +kernel,
    by decide +kernel⟩
  have hl : List.range ([[1], [2], [3]] : List (List ℕ)).length = [0, 1, 2] := rfl
  have hne : ¬ ([[1], [2], [3]] : List (List ℕ)).length = 0 := by decide
  have hnd : ([[1], [2], [3]] : List (List ℕ)).flatten.Nodup := by decide
  simp only [fitCategoricalUser, bind, Except.bind, pure, Except.pure, hne, hnd, not_true, if_false]
  simp only [ho, hl, fitCore, hpc, bind, Except.bind, pure, Except.pure, hs, hm]
  rw [show fitOptimizer true (exSolver fun _ _ => 0) [0, 1] [2, 1] [1, 2] =
    (⟨"FEASIBLE", [0, 1], [true, true]⟩ : OptimizerResult ℕ) by rw [fitOptimizer, h3]; rfl]
  rfl

/-- C07, finding: if one group is left, the table has no row for it: all its records are lost although both classes
occur. -/
theorem C07_single_group_lost : ∃ (recs : List (Rec ℕ)) (f : CatUserFitted ℕ),
    fitCategoricalUser {} .none (fun _ g => g) (exSolver fun _ _ => 0) [[1, 2]] recs = .ok f ∧
    weight recs (fun _ => True) = 2 ∧ f.event = [0, 0] ∧ f.nonevent = [0, 0] ∧ f.bins = [[1, 2]] := by
  set recs : List (Rec ℕ) := [⟨some 1, some false, 1⟩, ⟨some 1, some true, 1⟩] with hrecs
  have hpc : computePrebins { catUser := true } (((splitData .none {} recs).clean.filter
      fun r => !r.inCats []).map (Rec.encodeGroup [[1, 2]])) {} [0] =
      .ok ⟨{}, [0], [1], [1]⟩ := by
    rw [computePrebins]
    have h1 : ∀ e, prebinCounts true 1 [0] (((splitData .none {} recs).clean.filter
      fun r => !r.inCats []).map (Rec.encodeGroup [[1, 2]])) e = [1] := by decide +kernel
    simp [prebinNumber, h1, pureMask]
  have ho : (((splitData .none {} recs).clean.filterMap Rec.x).dedup.filter
      fun c => !([[1, 2]] : List (List ℕ)).flatten.contains c) = [] := by decide +kernel
  have hs : ∀ e, specialCounts .none (splitData .none {} recs).special e = [0] := by decide +kernel
  have hm : ∀ e, truncWeight ((splitData .none {} recs).missing.filter fun q => q.isEvent == e) = 0 := by
    decide +kernel
  refine ⟨recs, ⟨"OPTIMAL", [0], [[1, 2]], [], [0, 0], [0, 0]⟩, ?_, by decide +kernel, rfl, rfl, by decide +kernel⟩
  have hl : List.range ([[1, 2]] : List (List ℕ)).length = [0] := rfl
  have hne : ¬ ([[1, 2]] : List (List ℕ)).length = 0 := by decide
  have hnd : ([[1, 2]] : List (List ℕ)).flatten.Nodup := by decide
  simp only [fitCategoricalUser, bind, Except.bind, pure, Except.pure, hne, hnd, not_true, if_false]
  simp only [ho, hl, fitCore, hpc, bind, Except.bind, pure, Except.pure, hs, hm]
  rfl

/-- Non-vacuity of `C07_histogram_partial`: three groups, the first and the last contain both classes, the second is
pure and is merged. -/
def exMixedRecs : List (Rec ℕ) :=
  [⟨some 1, some false, 1⟩, ⟨some 1, some false, 1⟩, ⟨some 1, some true, 1⟩, ⟨some 3, some false, 1⟩,
   ⟨some 3, some true, 1⟩, ⟨some 3, some true, 1⟩, ⟨some 7, some true, 1⟩]

example : MixedGroup .none exMixedRecs (([[2], [1], [3]] : List (List ℕ)).getD 1 []) ∧
    MixedGroup .none exMixedRecs (([[2], [1], [3]] : List (List ℕ)).getD (3 - 1) []) := by
  constructor
  · intro e
    refine ⟨⟨some 1, some e, 1⟩, ?_, 1, by simp, rfl, by simp [IsSpecialValue], rfl, by simp⟩
    cases e <;> simp [exMixedRecs]
  · intro e
    refine ⟨⟨some 3, some e, 1⟩, ?_, 3, by simp, rfl, by simp [IsSpecialValue], rfl, by simp⟩
    cases e <;> simp [exMixedRecs]

/-- The corresponding fit: the empty group `[2]` is merged, category 7 is in "others". -/
theorem exMixedFit : ∃ f : CatUserFitted ℕ,
    fitCategoricalUser {} .none (fun _ g => g) (exSolver fun _ _ => 0) [[2], [1], [3]] exMixedRecs = .ok f ∧
    f.groups = [[2], [1], [3]] ∧ f.nonevent = [2, 1, 0, 0, 0] ∧ f.event = [1, 2, 1, 0, 0] ∧
    f.bins = [[2, 1], [3], [7]] := by
  have hpc : computePrebins { catUser := true } (((splitData .none {} exMixedRecs).clean.filter
      fun r => !r.inCats [7]).map (Rec.encodeGroup [[2], [1], [3]])) {} [0, 1, 2] =
      .ok ⟨{ nRefinements := 1 }, [1, 2], [2, 1], [1, 2]⟩ := by
    rw [computePrebins]
    have h1 : prebinCounts true 3 [0, 1, 2] (((splitData .none {} exMixedRecs).clean.filter
      fun r => !r.inCats [7]).map (Rec.encodeGroup [[2], [1], [3]])) false = [0, 2, 1] := by decide +kernel
    have h2 : prebinCounts true 3 [0, 1, 2] (((splitData .none {} exMixedRecs).clean.filter
      fun r => !r.inCats [7]).map (Rec.encodeGroup [[2], [1], [3]])) true = [0, 1, 2] := by decide +kernel
    have h3 : prebinCounts true 2 [1, 2] (((splitData .none {} exMixedRecs).clean.filter
      fun r => !r.inCats [7]).map (Rec.encodeGroup [[2], [1], [3]])) false = [2, 1] := by decide +kernel
    have h4 : prebinCounts true 2 [1, 2] (((splitData .none {} exMixedRecs).clean.filter
      fun r => !r.inCats [7]).map (Rec.encodeGroup [[2], [1], [3]])) true = [1, 2] := by decide +kernel
    simp only [prebinNumber, if_true, List.length_cons, List.length_nil, Nat.reduceAdd, h1, h2]
    simp only [pureMask, maskSplits]
    simp [select]
    rw [computePrebins]
    simp [prebinNumber, h3, h4, pureMask]
  have ho : (((splitData .none {} exMixedRecs).clean.filterMap Rec.x).dedup.filter
      fun c => !([[2], [1], [3]] : List (List ℕ)).flatten.contains c) = [7] := by decide +kernel
  have hs : ∀ e, specialCounts .none (splitData .none {} exMixedRecs).special e = [0] := by decide +kernel
  have hm : ∀ e, truncWeight ((splitData .none {} exMixedRecs).missing.filter fun q => q.isEvent == e) = 0 := by
    decide +kernel
  have hoo : ∀ e, truncWeight (((splitData .none {} exMixedRecs).clean.filter fun r => r.inCats [7]).filter
      fun q => q.isEvent == e) = if e then 1 else 0 := by decide +kernel
  have h3 := exSolver_solve (fun _ _ => 0) [2, 1] [1, 2] (by decide)
  refine ⟨⟨"FEASIBLE", [1, 2], [[2], [1], [3]], [7], [2, 1, 0, 0, 0], [1, 2, 1, 0, 0]⟩, ?_, rfl, rfl, rfl,
    by decide +kernel⟩
  have hl : List.range ([[2], [1], [3]] : List (List ℕ)).length = [0, 1, 2] := rfl
  have hne : ¬ ([[2], [1], [3]] : List (List ℕ)).length = 0 := by decide
  have hnd : ([[2], [1], [3]] : List (List ℕ)).flatten.Nodup := by decide
  simp only [fitCategoricalUser, bind, Except.bind, pure, Except.pure, hne, hnd, not_true, if_false]
  simp only [ho, hl, fitCore, hpc, bind, Except.bind, pure, Except.pure, hs, hm, hoo]
  rw [show fitOptimizer true (exSolver fun _ _ => 0) [1, 2] [2, 1] [1, 2] =
    (⟨"FEASIBLE", [1, 2], [true, true]⟩ : OptimizerResult ℕ) by rw [fitOptimizer, h3]; rfl]
  rfl

end OptBinning
