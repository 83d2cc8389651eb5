import Verif.Model.CatFixedC
import Verif.Props.CatUserParamsC

/-!
# C123: groups of categories with a continuous target, with `user_splits_fixed`
-/
namespace OptBinning
open OptBinning.Spec

variable {κ : Type} [LinearOrder κ] {p : ParamsC} {cutoff : Option XQ} {sc : SpecialCodes κ} {argsort : List (RecC κ) → List (List κ) → List ℕ}
  {solver : SolverC} {u u' : UserSplits (List κ)} {old old' : MissingStats} {recs : List (RecC κ)} {f : CatUserFittedC κ}

theorem sortedBy_perm (hax : ∀ l g, (argsort l g).Perm (List.range g.length)) (l : List (RecC κ)) (g : List (List κ)) :
    (sortedBy argsort l g).Perm g := by
  refine ((hax l g).map _).trans (List.Perm.of_eq ?_)
  refine List.ext_getElem (by simp) fun i h1 h2 => ?_
  simp only [List.getElem_map, List.getElem_range]
  exact List.getD_eq_getElem _ _ h2

/-- The pre-bins found with flags are found without. -/
theorem fitCoreC_user_any_state {clean : List (RecC ℕ)} {others : Option RowC} {special : List RowC} {missing : RowC} {st : PrebinState ℕ}
    {splits : List ℕ} {g : FittedC ℕ} {st' : PrebinState ℕ} (hne : splits ≠ [])
    (h : fitCoreC true solver clean others special missing st splits = .ok (st', g)) (solver2 : SolverC)
    (hs : ∀ cells : List CellC, (solve cells.length (solver2 cells)).2 = (solve cells.length (solver cells)).2)
    (st0 : PrebinState ℕ) (h0 : st0.fixed = none) :
    ∃ st2 s, fitCoreC true solver2 clean others special missing st0 splits = .ok (st2, { g with status := s }) ∧
      (solver2 = solver → s = g.status) := by
  obtain ⟨hc, pb, hpb, -, hcase⟩ := fitCoreC_user_cases hne h
  obtain ⟨st2, e2⟩ := computePrebinsC_any_state h0 hpb
  have hl : ¬ splits.length = 0 := fun h0 => hne (List.length_eq_zero_iff.1 h0)
  cases h2 : fitCoreC true solver2 clean others special missing st0 splits with
  | error e =>
    unfold fitCoreC at h2
    simp only [hl, e2, if_false, if_neg hc, bind, Except.bind, pure, Except.pure] at h2
    cases h2
  | ok q =>
    obtain ⟨st3, g2⟩ := q
    obtain ⟨-, pb2, hpb2, -, hcase2⟩ := fitCoreC_user_cases hne h2
    rw [e2] at hpb2
    cases hpb2
    refine ⟨st3, g2.status, ?_, ?_⟩
    · congr 1
      congr 1
      rcases hcase with ⟨h3, rfl⟩ | ⟨h3, rfl⟩ <;> rcases hcase2 with ⟨h4, rfl⟩ | ⟨h4, rfl⟩
      · rfl
      · simp only at h4; omega
      · simp only at h4; omega
      · simp only [hs]
    · rintro rfl
      rcases hcase with ⟨h3, rfl⟩ | ⟨h3, rfl⟩ <;> rcases hcase2 with ⟨h4, rfl⟩ | ⟨h4, rfl⟩
      · rfl
      · simp only at h4; omega
      · simp only at h4; omega
      · rfl

theorem fitCatFixedC_unpack (h : fitCatFixedC p cutoff sc argsort solver old u recs = .ok (old', u', f)) :
    checkParametersC p = .ok () ∧ badCutoff cutoff = false ∧ checkUserSplits u = .ok () ∧ u.splits ≠ [] ∧ u.splits.flatten.Nodup ∧
    f.others = ((splitDataC sc none recs).clean.filterMap RecC.x).dedup.filter (fun c => !u.splits.flatten.contains c) ∧
    f.groups = sortedBy argsort ((splitDataC sc none recs).clean.filter fun r => !r.inCats f.others) u.splits ∧
    old' = ⟨(missingRow old (splitDataC sc none recs).missing).var, (missingRow old (splitDataC sc none recs).missing).mn,
      (missingRow old (splitDataC sc none recs).missing).mx⟩ ∧
    ∃ special st', specialRows sc (splitDataC sc none recs).special = .ok special ∧
      fitCoreC true solver (((splitDataC sc none recs).clean.filter fun r => !r.inCats f.others).map (RecC.encodeGroup f.groups))
        (if f.others.length = 0 then none else some (summaryC ((splitDataC sc none recs).clean.filter fun r => r.inCats f.others)))
        special (missingRow old (splitDataC sc none recs).missing)
        { userSplits := List.range u.splits.length, fixed := u.fixed.map fun l =>
          (argsort ((splitDataC sc none recs).clean.filter fun r => !r.inCats f.others) u.splits).map fun i => l.values.getD i false }
        (List.range f.groups.length) = .ok (st', ⟨f.status, f.splits, f.rows⟩) ∧
      u' = ⟨st'.userSplits.map fun i => u.splits.getD i [], st'.fixed.map fun l => ⟨l, true⟩⟩ := by
  unfold fitCatFixedC at h
  split at h
  · cases h
  rename_i hp
  by_cases hb : badCutoff cutoff = true
  · rw [if_pos hb] at h; cases h
  rw [if_neg hb] at h
  split at h
  · cases h
  rename_i hu
  simp only at h
  by_cases h0 : u.splits.length = 0
  · rw [if_pos h0] at h; cases h
  by_cases h1 : u.splits.flatten.Nodup
  swap
  · rw [if_neg h0, if_pos h1] at h; cases h
  rw [if_neg h0, if_neg (not_not.2 h1)] at h
  split at h
  · cases h
  rename_i special hsp
  split at h
  · cases h
  rename_i q hq
  simp only [Except.ok.injEq, Prod.mk.injEq] at h
  obtain ⟨rfl, rfl, rfl⟩ := h
  exact ⟨hp, by simpa using hb, hu, fun hc => h0 (by simp [hc]), h1, rfl, rfl, rfl, special, q.1, hsp, hq, rfl⟩

/-- A fit with flags is, up to the status, a fit without flags. -/
theorem catFixed_user (hax : ∀ l g, (argsort l g).Perm (List.range g.length))
    (h : fitCatFixedC p cutoff sc argsort solver old u recs = .ok (old', u', f)) (solver2 : SolverC)
    (hs : ∀ cells : List CellC, (solve cells.length (solver2 cells)).2 = (solve cells.length (solver cells)).2) :
    ∃ s, fitCatUserParamsC p cutoff sc (sortedBy argsort) solver2 u.splits old recs = .ok (old', { f with status := s }) ∧
      (solver2 = solver → s = f.status) := by
  obtain ⟨h1, h2, -, h4, h5, h6, h7, h8, special, st', h9, h10, -⟩ := fitCatFixedC_unpack h
  have hgl : f.groups.length ≠ 0 := by
    rw [h7, (sortedBy_perm hax _ _).length_eq]; exact fun hc => h4 (List.length_eq_zero_iff.1 hc)
  obtain ⟨st2, s, e1, e2⟩ := fitCoreC_user_any_state (by simpa using hgl) h10 solver2 hs {} rfl
  refine ⟨s, ?_, e2⟩
  have h0 : ¬ u.splits.length = 0 := fun hc => h4 (List.length_eq_zero_iff.1 hc)
  unfold fitCatUserParamsC
  rw [h1]
  simp only [h2, Bool.false_eq_true, if_false]
  unfold fitCategoricalUserC
  simp only [h0, h5, not_true_eq_false, if_false, h9]
  rw [← h6, ← h7, e1, h8]

theorem catFixed_same (hax : ∀ l g, (argsort l g).Perm (List.range g.length))
    (h : fitCatFixedC p cutoff sc argsort solver old u recs = .ok (old', u', f)) :
    fitCatUserParamsC p cutoff sc (sortedBy argsort) solver u.splits old recs = .ok (old', f) := by
  obtain ⟨s, e1, e2⟩ := catFixed_user hax h solver fun _ => rfl
  rw [e2 rfl] at e1
  exact e1

theorem catFixed_demote (hax : ∀ l g, (argsort l g).Perm (List.range g.length))
    (h : fitCatFixedC p cutoff sc argsort solver old u recs = .ok (old', u', f)) :
    ∃ s, fitCatUserParamsC p cutoff sc (sortedBy argsort) (fun cells => (solver cells).demote) u.splits old recs =
      .ok (old', { f with status := s }) := by
  obtain ⟨s, e1, -⟩ := catFixed_user hax h (fun cells => (solver cells).demote) fun cells => by simp only [solve_demote]
  exact ⟨s, e1⟩

/-- C123: a fit which succeeds had valid arguments; the flags are Python bools, one per group. -/
theorem C123_arguments (hax : ∀ l g, (argsort l g).Perm (List.range g.length))
    (h : fitCatFixedC p cutoff sc argsort solver old u recs = .ok (old', u', f)) : checkParametersC p = .ok () ∧
    (∀ v, cutoff = some v → NumIn v fun q => 0 < q ∧ q ≤ 1) ∧ u.splits ≠ [] ∧ u.splits.flatten.Nodup ∧
    ∀ fx, u.fixed = some fx → fx.values.length = u.splits.length ∧ fx.numpy = false := by
  obtain ⟨a, b, c, d⟩ := C122_arguments (catFixed_same hax h)
  refine ⟨a, b, c, d, fun fx hfx => ?_⟩
  obtain ⟨a, b⟩ := checkUserSplits_ok.1 (fitCatFixedC_unpack h).2.2.1 fx hfx
  refine ⟨a, ?_⟩
  cases hn : fx.numpy with
  | false => rfl
  | true =>
    have := b hn
    rw [this] at a
    exact absurd (List.length_eq_zero_iff.1 a.symm) c

/-- C123: "others" holds exactly the training categories in no group; the other bins consist of whole groups. -/
theorem C123_groups (hax : ∀ l g, (argsort l g).Perm (List.range g.length))
    (h : fitCatFixedC p cutoff sc argsort solver old u recs = .ok (old', u', f)) :
    (∀ v, v ∈ f.others ↔ IsTrainCategoryC sc recs v ∧ ∀ g ∈ u.splits, v ∉ g) ∧ f.groups.Perm u.splits ∧
    ∀ g ∈ u.splits, ∀ v ∈ g, ∀ w ∈ g, ∀ k, v ∈ f.bins.getD k [] → w ∈ f.bins.getD k [] := by
  obtain ⟨-, -, h3⟩ := fitCatUserParamsC_ok (catFixed_same hax h)
  exact ⟨C122_others h3, (userC_groups (sortedBy_perm hax) h3).1,
    fun g hg v hv w hw k hk => C122_whole_groups (sortedBy_perm hax) h3 hg hv hw k hk⟩

/-- C123: if at least two groups occur in the training data, every training category is in exactly one bin. -/
theorem C123_partition (hax : ∀ l g, (argsort l g).Perm (List.range g.length)) {sv : SolverCfgC} (hr : RespectsC sv solver) (hu : UnitWeights recs)
    (htwo : ∃ g ∈ u.splits, ∃ g' ∈ u.splits, g ≠ g' ∧ Occurs sc recs g ∧ Occurs sc recs g')
    (h : fitCatFixedC p cutoff sc argsort solver old u recs = .ok (old', u', f)) :
    (∀ v, IsTrainCategoryC sc recs v → ∃ k < f.bins.length, v ∈ f.bins.getD k [] ∧ ∀ j, v ∈ f.bins.getD j [] → j = k) ∧
    (f.others ≠ [] → ∀ v, v ∈ f.bins.getD (f.bins.length - 1) [] ↔ v ∈ f.others) := by
  obtain ⟨-, -, h3⟩ := fitCatUserParamsC_ok (catFixed_same hax h)
  exact C122_partition (sortedBy_perm hax) hr hu htwo h3

/-- C123: the rows of the table: if at least two groups occur in the training data, row `k` describes the targets of the training records whose
category is in bin `k` ("others" included). -/
theorem C123_rows (hax : ∀ l g, (argsort l g).Perm (List.range g.length)) {sv : SolverCfgC} (hr : RespectsC sv solver) (hu : UnitWeights recs)
    (htwo : ∃ g ∈ u.splits, ∃ g' ∈ u.splits, g ≠ g' ∧ Occurs sc recs g ∧ Occurs sc recs g')
    (h : fitCatFixedC p cutoff sc argsort solver old u recs = .ok (old', u', f)) (k : ℕ) (hk : k < f.bins.length) :
    ∃ row, f.rows[k]? = some row ∧ Summarises (groupTargets sc recs (f.bins.getD k [])) row.cnt row.sum row.var row.mn row.mx row.zeros := by
  obtain ⟨-, -, h3⟩ := fitCatUserParamsC_ok (catFixed_same hax h)
  exact C122_rows (sortedBy_perm hax) hr hu htwo h3 k hk

/-- C123: the limits on the number and size of bins hold, with flags too. -/
theorem C123_limits (hax : ∀ l g, (argsort l g).Perm (List.range g.length)) (hull : List ℚ → Option ℚ) (pv : ℚ → ℝ → ℕ → ℚ → ℝ → ℕ → ℝ)
    (hu : UnitWeights recs) (h : fitCatFixedC p cutoff sc argsort solver old u recs = .ok (old', u', f))
    (hr : RespectsC (p.forCategorical.cfgFixed hull pv recs.length u'.fixed) solver) (hne : 2 ≤ f.splits.length) :
    (∀ b, p.minBins = some b → b ≤ f.splits.length) ∧ (∀ b, p.maxBins = some b → (f.splits.length : ℤ) ≤ b) ∧
    ∀ k < f.splits.length, ∃ (cnt : ℕ) (m : ℚ) (sd : ℝ), RowShows f.rows k cnt m sd ∧ 0 < cnt ∧
      (∀ q, p.minBinSize = some (.num q) → q * (recs.length : ℚ) ≤ (cnt : ℚ)) ∧
      (∀ q, p.maxBinSize = some (.num q) → (cnt : ℚ) < q * (recs.length : ℚ) + 1) := by
  obtain ⟨s, h2⟩ := catFixed_demote hax h
  exact C122_limits (f := { f with status := s }) (sortedBy_perm hax) hull pv hu h2 (respectsC_demote hr) hne

/-- C123: with any `monotonic_trend` except None the Means of the bins before "others" ascend, with flags too. -/
theorem C123_trend (hax : ∀ l g, (argsort l g).Perm (List.range g.length)) (hull : List ℚ → Option ℚ) (pv : ℚ → ℝ → ℕ → ℚ → ℝ → ℕ → ℝ)
    (hu : UnitWeights recs) (h : fitCatFixedC p cutoff sc argsort solver old u recs = .ok (old', u', f))
    (hr : RespectsC (p.forCategorical.cfgFixed hull pv recs.length u'.fixed) solver) (ht : p.trend ≠ .none) (hne : 2 ≤ f.splits.length)
    (cnt : ℕ → ℕ) (m : ℕ → ℚ) (sd : ℕ → ℝ) (hm : ∀ k < f.splits.length, RowShows f.rows k (cnt k) (m k) (sd k)) (j k : ℕ) (hjk : j < k)
    (hk : k < f.splits.length) : truncRat (m j * 1000000) ≤ truncRat (m k * 1000000) := by
  obtain ⟨s, h2⟩ := catFixed_demote hax h
  exact C122_trend (f := { f with status := s }) (sortedBy_perm hax) hull pv hu h2 (respectsC_demote hr) ht hne cnt m sd hm j k hjk hk

/-- C123: `min_mean_diff`, with flags too. -/
theorem C123_min_mean_diff (hax : ∀ l g, (argsort l g).Perm (List.range g.length)) (hull : List ℚ → Option ℚ) (pv : ℚ → ℝ → ℕ → ℚ → ℝ → ℕ → ℝ)
    (hu : UnitWeights recs) (h : fitCatFixedC p cutoff sc argsort solver old u recs = .ok (old', u', f))
    (hr : RespectsC (p.forCategorical.cfgFixed hull pv recs.length u'.fixed) solver) (cnt : ℕ → ℕ) (m : ℕ → ℚ) (sd : ℕ → ℝ)
    (hm : ∀ k < f.splits.length, RowShows f.rows k (cnt k) (m k) (sd k)) (v : ℚ) (hv : p.minMeanDiff = .num v) (k : ℕ)
    (hk : k + 1 < f.splits.length) : v ≤ |m k - m (k + 1)| := by
  obtain ⟨s, h2⟩ := catFixed_demote hax h
  exact C122_min_mean_diff (f := { f with status := s }) (sortedBy_perm hax) hull pv hu h2 (respectsC_demote hr) cnt m sd hm v hv k hk

theorem digitize_right_lt {S : List ℕ} {a b : ℕ} (ha : a ∈ S) (hab : a < b) : digitize true S (some a) < digitize true S (some b) := by
  simp only [digitize, if_true]
  have hp := List.perm_cons_erase ha
  rw [hp.countP_eq, hp.countP_eq, List.countP_cons, List.countP_cons]
  have : List.countP (fun s => decide (s < a)) (S.erase a) ≤ List.countP (fun s => decide (s < b)) (S.erase a) :=
    List.countP_mono_left fun s _ hs => by simp only [decide_eq_true_eq] at hs ⊢; omega
  simp [hab]
  omega

/-- The flag of a group stands at the position of the group among the sorted groups. -/
theorem flag_position (hax : ∀ l g, (argsort l g).Perm (List.range g.length)) (l : List (RecC κ)) {g : List κ} (hf : IsFixed u g) :
    ∃ fx, u.fixed = some fx ∧ ∃ q : ℕ, (sortedBy argsort l u.splits)[q]? = some g ∧ ((argsort l u.splits).map fun i => fx.values.getD i false)[q]? = some true := by
  obtain ⟨fx, hfx, hmem⟩ := hf
  refine ⟨fx, hfx, ?_⟩
  obtain ⟨i, hi, hie⟩ := List.mem_iff_getElem.1 hmem
  rw [List.getElem_zip, Prod.mk.injEq] at hie
  have hi1 : i < u.splits.length := by simp at hi; omega
  have hi2 : i < fx.values.length := by simp at hi; omega
  obtain ⟨q, hq, hqe⟩ := List.mem_iff_getElem.1 ((hax l u.splits).mem_iff.2 (List.mem_range.2 hi1))
  refine ⟨q, ?_, ?_⟩
  · unfold sortedBy
    rw [List.getElem?_map, List.getElem?_eq_getElem hq, hqe, Option.map_some, List.getD_eq_getElem _ _ hi1, hie.1]
  · rw [List.getElem?_map, List.getElem?_eq_getElem hq, hqe, Option.map_some, List.getD_eq_getElem _ _ hi2, hie.2]

/-- C123: a group flagged as fixed occurs in the training data and, if the solver found a solution, it is the last group of its bin: no group with
a higher rank shares its bin. -/
theorem C123_fixed (hax : ∀ l g, (argsort l g).Perm (List.range g.length)) (hull : List ℚ → Option ℚ) (pv : ℚ → ℝ → ℕ → ℚ → ℝ → ℕ → ℝ)
    (hu : UnitWeights recs) (h : fitCatFixedC p cutoff sc argsort solver old u recs = .ok (old', u', f))
    (hr : RespectsC (p.forCategorical.cfgFixed hull pv recs.length u'.fixed) solver) (hs : f.status = "OPTIMAL" ∨ f.status = "FEASIBLE")
    {g : List κ} (hf : IsFixed u g) : Occurs sc recs g ∧ ∃ q : ℕ, f.groups[q]? = some g ∧
      ∀ (q' : ℕ) (g' : List κ), q < q' → f.groups[q']? = some g' → ∀ v ∈ g, ∀ w ∈ g', ∀ k, v ∈ f.bins.getD k [] → w ∉ f.bins.getD k [] := by
  obtain ⟨-, -, -, h4, h5, h6, h7, -, special, st', -, h10, rfl⟩ := fitCatFixedC_unpack h
  obtain ⟨-, -, h3⟩ := fitCatUserParamsC_ok (catFixed_same hax h)
  have hsg := sortedBy_perm hax
  obtain ⟨hperm, hn, hpos, hmo⟩ := userC_groups hsg h3
  have hgl : f.groups.length ≠ 0 := by
    rw [hperm.length_eq]; exact fun hc => h4 (List.length_eq_zero_iff.1 hc)
  obtain ⟨fx, hfx, q, hq1, hq2⟩ := flag_position hax ((splitDataC sc none recs).clean.filter fun r => !r.inCats f.others) hf
  rw [← h7] at hq1
  have hql : q < f.groups.length := (List.getElem?_eq_some_iff.1 hq1).1
  obtain ⟨hc, pb, hpb, hst, hcase⟩ := fitCoreC_user_cases (by simpa using hgl) h10
  obtain ⟨hsub, -, hcells, hcnt⟩ := computePrebinsC_spec _ _ _ _ _ hpb
  have hlen : pb.cells.length = pb.splits.length := by rw [hcells]; simp [prebinCells, prebinNumber]
  have hsp : pb.splits.Pairwise (· < ·) := List.pairwise_lt_range.sublist hsub
  have hfl : ((argsort ((splitDataC sc none recs).clean.filter fun r => !r.inCats f.others) u.splits).map
      fun i => fx.values.getD i false).length = (List.range f.groups.length).length := by
    rw [h7]; simp [sortedBy]
  obtain ⟨fx', g1, g2, g3⟩ := computePrebinsC_fixed (by rw [hfx]; rfl) hfl hpb
  have hin := g3 q (by
    rw [List.mem_iff_getElem?]
    refine ⟨q, ?_⟩
    rw [List.getElem?_zip_eq_some]
    exact ⟨List.getElem?_range hql, hq2⟩)
  obtain ⟨i, hi, hie⟩ := List.mem_iff_getElem.1 hin
  have hi1 : i < pb.splits.length := by simp at hi; omega
  have hi2 : i < fx'.length := by simp at hi; omega
  rw [List.getElem_zip, Prod.mk.injEq] at hie
  constructor
  · -- the cell of the group is not empty
    have hci : i < pb.cells.length := by omega
    have hne := hcnt _ (List.getElem_mem hci)
    have hex : ∃ r ∈ ((splitDataC sc none recs).clean.filter fun r => !r.inCats f.others).map (RecC.encodeGroup f.groups),
        digitize true pb.splits r.x = i := by
      by_contra hno
      push Not at hno
      apply hne
      have : pb.cells[i] = cellOf ((((splitDataC sc none recs).clean.filter fun r => !r.inCats f.others).map
          (RecC.encodeGroup f.groups)).filter fun r => digitize true pb.splits r.x == i) := by
        apply Option.some.inj
        rw [← List.getElem?_eq_getElem hci, hcells]
        simp only [prebinCells, List.getElem?_map, prebinNumber, if_true]
        rw [List.getElem?_range (by omega), Option.map_some]
      rw [this, List.filter_eq_nil_iff.2 fun r hr => by simpa using hno r hr]
      rfl
    obtain ⟨r', hr', hd⟩ := hex
    obtain ⟨r, hr0, rfl⟩ := List.mem_map.1 hr'
    obtain ⟨ha, hb, v, hv, q2, g2', hp2, hvg⟩ := (userC_main hsg h3).1 hr0
    have hx := userC_code hsg h3 hv hp2 hvg
    have hu' : UnitWeights (((splitDataC sc none recs).clean.filter fun r => !r.inCats f.others).map (RecC.encodeGroup f.groups)) := by
      intro a ha'
      obtain ⟨r2, hr2, rfl⟩ := List.mem_map.1 ha'
      exact hu r2 ((userC_main hsg h3).1 hr2).1
    have hm : q2 ∈ pb.splits := computePrebinsC_keeps hu' hr' hx _ _ _ List.pairwise_lt_range
      (List.mem_range.2 (List.getElem?_eq_some_iff.1 hp2).1) hpb
    obtain ⟨j, hj, hje⟩ := List.mem_iff_getElem.1 hm
    rw [hx, digitize_right_idx hsp (by rw [List.getElem?_eq_getElem hj, hje])] at hd
    subst hd
    rw [hie.1] at hje
    rw [← hje, hq1] at hp2
    cases hp2
    exact ⟨v, hvg, r, ha, hb, hv⟩
  · refine ⟨q, hq1, fun q' g' hqq hg' v hv w hw k hvk hwk => ?_⟩
    have hqs : q ∈ f.splits := by
      rcases hcase with ⟨hle, e⟩ | ⟨hge, e⟩
      · have e1 : f.splits = _ := congrArg FittedC.splits e
        simp only at e1
        rw [e1, ← hie.1]
        exact List.getElem_mem _
      · have e1 : f.splits = _ := congrArg FittedC.splits e
        have e0 : f.status = _ := congrArg FittedC.status e
        simp only at e0 e1
        have hl := solve_length pb.cells.length (solver pb.cells)
        rw [e1, ← hie.1]
        refine mem_select hi1 (by omega) ?_
        set fa : Option FlagArray := st'.fixed.map fun l => ⟨l, true⟩ with hfa
        have hrc := hr pb.cells
        have hnn : ((p.forCategorical.cfgFixed hull pv recs.length fa).input pb.cells).n = pb.cells.length := by
          simp [SolverCfgC.input, ContInput.n]
        have hs' : Solved (solve ((p.forCategorical.cfgFixed hull pv recs.length fa).input pb.cells).n (solver pb.cells)) := by
          rw [hnn]; unfold Solved; rw [← e0]; exact hs
        obtain ⟨a, ha, hd⟩ := solved_diag hrc hs'
        obtain ⟨-, -, -, -, -, -, -, -, -, hfs⟩ := ha
        rw [hnn] at hfs hd
        rcases Nat.lt_or_ge (i + 1) pb.cells.length with hlt | hlast
        · have hgo : ((p.forCategorical.cfgFixed hull pv recs.length fa).opts pb.cells).fixed = some fun i => fx'.getD i false := by
            show fa.map _ = _
            rw [hfa, Option.map_map, hst, g1]
            rfl
          have hfi : (fun i => fx'.getD i false) i = true := by
            simp only [List.getD_eq_getElem _ _ hi2, hie.2]
          have hx := hfs _ hgo i hlt hfi
          have hsol : solOf (solve pb.cells.length (solver pb.cells)).2 i = true := by
            rw [← hd i (by omega)]
            unfold diag
            rw [hx]
            rfl
          unfold solOf at hsol
          rwa [List.getD_eq_getElem _ _ (by omega)] at hsol
        · have hl2 := hr.last pb.cells (by omega)
          rw [List.getLast?_eq_getElem?, List.getElem?_eq_some_iff] at hl2
          obtain ⟨hl3, hl4⟩ := hl2
          have : (solve pb.cells.length (solver pb.cells)).2.length - 1 = i := by omega
          simp only [this] at hl4
          exact hl4
    have hlt := digitize_right_lt hqs hqq
    have hvo : ∀ {x : κ} {t : ℕ} {gg : List κ}, f.groups[t]? = some gg → x ∈ gg → x ∉ f.others := fun ht hx ho =>
      ((hmo _).1 ho).2 ((hpos _).2 ⟨_, _, ht, hx⟩)
    rcases (mem_bins_userC f v k).1 hvk with ⟨-, t, gt, ht, hvt, hd⟩ | ⟨-, ho⟩
    · rcases (mem_bins_userC f w k).1 hwk with ⟨-, t', gt', ht', hwt, hd'⟩ | ⟨-, ho⟩
      · rw [← pos_unique hn hq1 ht hv hvt] at hd
        rw [← pos_unique hn hg' ht' hw hwt] at hd'
        omega
      · exact hvo hg' hw ho
    · exact hvo hq1 hv ho

/-- C123, finding: after a fit with flags every further fit of the object is refused. -/
theorem C123_second_fit_refused (hax : ∀ l g, (argsort l g).Perm (List.range g.length))
    (h : fitCatFixedC p cutoff sc argsort solver old u recs = .ok (old', u', f)) (hf : u.fixed ≠ none) (p2 : ParamsC) (cutoff2 : Option XQ)
    (sc2 : SpecialCodes κ) (argsort2 : List (RecC κ) → List (List κ) → List ℕ) (solver2 : SolverC) (old2 : MissingStats) (recs2 : List (RecC κ)) :
    ∃ e, fitCatFixedC p2 cutoff2 sc2 argsort2 solver2 old2 u' recs2 = .error e := by
  cases h2 : fitCatFixedC p2 cutoff2 sc2 argsort2 solver2 old2 u' recs2 with
  | error e => exact ⟨e, rfl⟩
  | ok r =>
    exfalso
    obtain ⟨o2, u2, f2⟩ := r
    obtain ⟨-, -, hc, hne2, -⟩ := fitCatFixedC_unpack h2
    obtain ⟨-, -, -, h4, h5, h6, h7, -, special, st', -, h10, rfl⟩ := fitCatFixedC_unpack h
    obtain ⟨-, -, h3⟩ := fitCatUserParamsC_ok (catFixed_same hax h)
    have hgl : f.groups.length ≠ 0 := by
      rw [(userC_groups (sortedBy_perm hax) h3).1.length_eq]; exact fun hc => h4 (List.length_eq_zero_iff.1 hc)
    obtain ⟨-, pb, hpb, rfl, -⟩ := fitCoreC_user_cases (by simpa using hgl) h10
    obtain ⟨fx, hfx⟩ := Option.ne_none_iff_exists'.1 hf
    have hfl : ((argsort ((splitDataC sc none recs).clean.filter fun r => !r.inCats f.others) u.splits).map
        fun i => fx.values.getD i false).length = (List.range f.groups.length).length := by
      rw [h7]; simp [sortedBy]
    obtain ⟨fx', g1, g2, -⟩ := computePrebinsC_fixed (by rw [hfx]; rfl) hfl hpb
    obtain ⟨a, b⟩ := checkUserSplits_ok.1 hc ⟨fx', true⟩ (by simp [g1])
    have := b rfl
    simp only at this
    subst this
    exact hne2 (List.length_eq_zero_iff.1 a.symm)

end OptBinning
