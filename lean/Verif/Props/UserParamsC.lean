import Verif.Props.UserParams
import Verif.Props.ParamsC
import Verif.Props.FitOptimalC
import Verif.Spec.UserParamsC

/-!
# C120: fits of a continuous target with `user_splits` and `user_splits_fixed`
-/
namespace OptBinning
open OptBinning.Spec

variable {α : Type*} [LinearOrder α] {p : ParamsC} {sc : SpecialCodes α} {det : Option (List (RecC α) → List Bool)} {rnd : ℤ → α → α} {solver : SolverC}
  {old old' : MissingStats} {u u' : UserSplits α} {recs : List (RecC α)} {f : FittedC α}

theorem computePrebinsC_any_state {recs : List (RecC α)} {splits : List α} {st st0 : PrebinState α} {pb : PrebinsC α} {c : Bool}
    (h0 : st0.fixed = none) (h : computePrebinsC c recs st splits = .ok pb) :
    ∃ st', computePrebinsC c recs st0 splits = .ok ⟨st', pb.splits, pb.cells⟩ := by
  induction hn : splits.length using Nat.strong_induction_on generalizing splits st st0 with
  | _ n ih =>
    rw [computePrebinsC] at h ⊢
    simp only at h ⊢
    split_ifs at h ⊢ with h1 h2
    · have hm := maskSplits_any (c := c) (n := splits.length) (by omega)
        (by simp [emptyMask, prebinCells, prebinNumber]) h2
      have hlt := length_select_lt hm.1 hm.2
      rw [h0]
      cases hf : st.fixed with
      | none =>
        rw [hf] at h
        exact ih _ (hn ▸ hlt) rfl h rfl
      | some fx =>
        rw [hf] at h
        simp only at h
        split_ifs at h with h4
        exact ih _ (hn ▸ hlt) rfl h rfl
    · cases h; exact ⟨_, rfl⟩

/-- Without flags the refinement leaves the user splits as they are. -/
theorem computePrebinsC_unflagged {recs : List (RecC α)} {splits : List α} {st : PrebinState α} {pb : PrebinsC α}
    (hn : st.fixed = none) (h : computePrebinsC false recs st splits = .ok pb) : pb.st.fixed = none ∧ pb.st.userSplits = st.userSplits := by
  induction hl : splits.length using Nat.strong_induction_on generalizing splits st with
  | _ n ih =>
    rw [computePrebinsC] at h
    simp only [hn] at h
    split_ifs at h with h1 h2
    · have hm := maskSplits_any (c := false) (n := splits.length) (by omega)
        (by simp [emptyMask, prebinCells, prebinNumber]) h2
      exact ih _ (hl ▸ length_select_lt hm.1 hm.2) (st := { userSplits := st.userSplits, nRefinements := st.nRefinements + 1, flagMin := st.flagMin }) rfl h rfl
    · cases h; exact ⟨hn, rfl⟩

/-- The refinement keeps every split flagged as fixed, together with its flag, or fails. -/
theorem computePrebinsC_fixed {recs : List (RecC α)} {st : PrebinState α} {splits : List α} {fx : List Bool} {pb : PrebinsC α} {c : Bool}
    (hfx : st.fixed = some fx) (hl : fx.length = splits.length) (h : computePrebinsC c recs st splits = .ok pb) :
    ∃ fx', pb.st.fixed = some fx' ∧ fx'.length = pb.splits.length ∧ ∀ s, (s, true) ∈ splits.zip fx → (s, true) ∈ pb.splits.zip fx' := by
  induction hn : splits.length using Nat.strong_induction_on generalizing splits st fx with
  | _ n ih =>
    rw [computePrebinsC] at h
    simp only [hfx] at h
    split_ifs at h with h0 h1 h3
    · have hm := maskSplits_any (c := c) (n := splits.length) (by omega)
        (by simp [emptyMask, prebinCells, prebinNumber]) h1
      set mask := maskSplits c (emptyMask (prebinCells c (prebinNumber c splits) splits recs)) with hmask
      have hlt := length_select_lt hm.1 hm.2
      obtain ⟨fx', e1, e2, e3⟩ := ih _ (hn ▸ hlt) (fx := select fx (mask.map (!·))) rfl
        (by rw [length_select _ _ (by simp [hm.1, hl]), length_select _ _ (by simp [hm.1])]) h rfl
      refine ⟨fx', e1, e2, fun s hs => e3 s ?_⟩
      refine mem_zip_select hs (by simp [hm.1]) (by simp [hm.1, hl]) fun i i1 i2 i3 _ e => ?_
      simp only [List.getElem_map, Bool.not_eq_true']
      have h4 : ¬ ((fx.zipWith and mask).any id = true) := h3
      rw [Bool.not_eq_true, List.any_eq_false] at h4
      have i4 : i < mask.length := by simpa using i3
      have := h4 ((fx.zipWith and mask)[i]'(by simp; omega)) (List.getElem_mem _)
      simpa [e] using this
    · cases h; exact ⟨fx, hfx, hl, fun _ h => h⟩

theorem cfgC_fixed (p : ParamsC) (hull : List ℚ → Option ℚ) (pv : ℚ → ℝ → ℕ → ℚ → ℝ → ℕ → ℝ) (n : ℕ) (cells : List CellC) :
    ((p.cfg hull pv n).opts cells).fixed = none := by
  simp only [ParamsC.cfg, ParamsC.options, bind, Except.bind]
  cases resolveTrendC hull cells p.trend <;> rfl

theorem acceptsCont_fixed {o : Opts} {inp : ContInput} {a : Assign} {g : Option (ℕ → Bool)} (ho : o.fixed = none)
    (h : acceptsCont { o with fixed := g } inp a) : acceptsCont o inp a := by
  obtain ⟨h1, h2, h3, h4, h5, h6, h7, h8, h9, -⟩ := h
  refine ⟨h1, h2, h3, h4, h5, h6, h7, h8, h9, fun f hf => ?_⟩
  rw [ho] at hf
  cases hf

theorem respectsC_demote {hull : List ℚ → Option ℚ} {pv : ℚ → ℝ → ℕ → ℚ → ℝ → ℕ → ℝ} {n : ℕ} {fixed : Option FlagArray}
    (h : RespectsC (p.cfgFixed hull pv n fixed) solver) : RespectsC (p.cfg hull pv n) (fun cells => (solver cells).demote) := fun cells =>
  demote_valid (fun _ ha => acceptsCont_fixed (cfgC_fixed p hull pv n cells) ha) (h cells)

theorem fitCoreC_eq {clean : List (RecC α)} {others : Option RowC} {special : List RowC} {missing : RowC} {st : PrebinState α} {splits : List α} {pb : PrebinsC α}
    (hc : clean ≠ []) (hne : splits ≠ []) (hpb : computePrebinsC false clean st splits = .ok pb) :
    fitCoreC false solver clean others special missing st splits = .ok (pb.st, ⟨(solve pb.cells.length (solver pb.cells)).1,
      select pb.splits (solve pb.cells.length (solver pb.cells)).2.dropLast,
      accumRows (solve pb.cells.length (solver pb.cells)).2 pb.cells CellC.zero ++ (others.toList ++ (special ++ [missing]))⟩) := by
  have hl : ¬ splits.length = 0 := fun h0 => hne (List.length_eq_zero_iff.1 h0)
  obtain ⟨h1, h2, h3, h4⟩ := computePrebinsC_spec _ _ _ _ _ hpb
  have hlen : pb.cells.length = pb.splits.length + 1 := by rw [h3]; simp [prebinCells, prebinNumber]
  have hpos : 0 < pb.splits.length := List.length_pos_iff.2 h2
  have hn2 : ¬ pb.cells.length ≤ 1 := by omega
  have hsl := solve_length pb.cells.length (solver pb.cells)
  have hsl0 : ¬ (solve pb.cells.length (solver pb.cells)).2 = [] := fun h => by rw [h] at hsl; simp at hsl; omega
  unfold fitCoreC
  simp [hl, hpb, hc, bind, Except.bind, pure, Except.pure, fitOptimizerC, hn2, hsl0]

theorem fitCoreC_demote {clean : List (RecC α)} {others : Option RowC} {special : List RowC} {missing : RowC} {st : PrebinState α} {splits : List α}
    {r : PrebinState α × FittedC α} (h : fitCoreC false solver clean others special missing st splits = .ok r) :
    ∃ s, fitCoreC false (fun cells => (solver cells).demote) clean others special missing st splits = .ok (r.1, { r.2 with status := s }) := by
  obtain ⟨st', f⟩ := r
  obtain ⟨hc, ⟨h1, h2⟩ | ⟨pb, h1, h2, h3, h4⟩⟩ := fitCoreC_cases h
  · subst h1
    refine ⟨f.status, ?_⟩
    rw [← h]
    unfold fitCoreC
    simp [fitOptimizerC, bind, Except.bind, pure, Except.pure]
  · rw [fitCoreC_eq hc h1 h2]
    subst h3 h4
    refine ⟨(solve pb.cells.length (solver pb.cells).demote).1, ?_⟩
    simp only [solve_demote]

theorem fitNumericalC_demote {prebin : List (RecC α) → List α} (h : fitNumericalC sc det prebin solver old recs = .ok (old', f)) :
    ∃ s, fitNumericalC sc det prebin (fun cells => (solver cells).demote) old recs = .ok (old', { f with status := s }) := by
  unfold fitNumericalC at h ⊢
  simp only at h ⊢
  split at h
  · cases h
  rename_i special hsp
  simp only [bind, Except.bind] at h
  split at h
  · cases h
  rename_i r hr
  simp only [pure, Except.pure, Except.ok.injEq, Prod.mk.injEq] at h
  obtain ⟨rfl, rfl⟩ := h
  obtain ⟨s, hs⟩ := fitCoreC_demote hr
  exact ⟨s, by simp only [hs, bind, Except.bind, pure, Except.pure]⟩

theorem roundedC_asCut (p : ParamsC) (rnd : ℤ → α → α) : p.rounded rnd = asCutC p rnd := by
  funext t
  unfold ParamsC.rounded asCutC
  cases p.splitDigits <;> rfl

theorem roundedC_mono (p : ParamsC) (hmono : ∀ d, Monotone (rnd d)) : Monotone (p.rounded rnd) := by
  unfold ParamsC.rounded
  split
  · exact monotone_id
  · exact hmono _

/-- The bins do not depend on the state of the object. -/
theorem fitCoreC_any_state {clean : List (RecC α)} {others : Option RowC} {special : List RowC} {missing : RowC} {st : PrebinState α} {splits : List α}
    (hne : splits ≠ []) {r : PrebinState α × FittedC α} (h : fitCoreC false solver clean others special missing st splits = .ok r) :
    ∃ pb, computePrebinsC false clean st splits = .ok pb ∧ r.1 = pb.st ∧
      r.2.splits = select pb.splits (solve pb.cells.length (solver pb.cells)).2.dropLast ∧ r.2.status = (solve pb.cells.length (solver pb.cells)).1 ∧
      ∀ st0 : PrebinState α, st0.fixed = none → ∃ st2, fitCoreC false solver clean others special missing st0 splits = .ok (st2, r.2) ∧
        computePrebinsC false clean st0 splits = .ok ⟨st2, pb.splits, pb.cells⟩ := by
  obtain ⟨st', f⟩ := r
  obtain ⟨hc, ⟨h1, h2⟩ | ⟨pb, h1, h2, h3, h4⟩⟩ := fitCoreC_cases h
  · exact absurd h1 hne
  subst h3 h4
  refine ⟨pb, h2, rfl, rfl, rfl, fun st0 h0 => ?_⟩
  obtain ⟨st2, e2⟩ := computePrebinsC_any_state h0 h2
  exact ⟨st2, fitCoreC_eq hc h1 e2, e2⟩

/-- What a successful fit does with the user splits. -/
theorem userC_facts (h : fitUserParamsC p sc det rnd solver old u recs = .ok (old', u', f)) :
    checkParametersC p = .ok () ∧ checkUserSplits u = .ok () ∧ u.splits ≠ [] ∧
    ∃ (sorted : List α) (pb : PrebinsC α) (st1 : PrebinState α), sorted.Perm u.splits ∧ sorted.Pairwise (· ≤ ·) ∧ sorted.Nodup ∧
      fitParamsC p sc det (fun _ => sorted.map (p.rounded rnd)) solver old recs = .ok (old', f) ∧
      computePrebinsC false (splitDataC sc det recs).clean st1 (sorted.map (p.rounded rnd)) = .ok pb ∧
      f.splits = select pb.splits (solve pb.cells.length (solver pb.cells)).2.dropLast ∧ f.status = (solve pb.cells.length (solver pb.cells)).1 ∧
      u' = ⟨pb.st.userSplits, pb.st.fixed.map fun l => ⟨l, true⟩⟩ ∧
      (∀ fx, u.fixed = some fx → ∃ fx1, st1.fixed = some fx1 ∧ fx1.length = sorted.length ∧ ∀ q, q ∈ sorted.zip fx1 ↔ q ∈ u.splits.zip fx.values) ∧
      (u.fixed = none → st1 = { userSplits := u.splits }) := by
  unfold fitUserParamsC at h
  split at h
  · cases h
  rename_i h1
  split at h
  · cases h
  rename_i h2
  split at h
  · cases h
  rename_i r h3
  simp only [Except.ok.injEq, Prod.mk.injEq] at h
  obtain ⟨ho, hu, hf⟩ := h
  unfold fitUserRoundedC at h3
  split_ifs at h3 with h0
  split at h3
  · cases h3
  rename_i st1 sorted hso
  split at h3
  · cases h3
  rename_i special hsp
  split at h3
  · cases h3
  rename_i q hq
  simp only [Except.ok.injEq] at h3
  have hl : ∀ fx, u.fixed.map FlagArray.values = some fx → fx.length = u.splits.length := by
    intro fx hfx
    cases hf : u.fixed with
    | none => rw [hf] at hfx; cases hfx
    | some g =>
      rw [hf, Option.map_some, Option.some.injEq] at hfx
      rw [← hfx]
      exact (checkUserSplits_ok.1 h2 g hf).1
  obtain ⟨k1, k2, k3, -⟩ := sortUserSplits_sorted hl hso
  have hnd : u.splits.Nodup := by
    unfold sortUserSplits at hso
    split_ifs at hso with hn
    exact hn
  have hne0 : u.splits ≠ [] := fun hc => h0 (by simp [hc])
  have hsne : sorted.map (p.rounded rnd) ≠ [] := by
    intro hc
    rw [List.map_eq_nil_iff] at hc
    rw [hc] at k1
    exact hne0 (List.nil_perm.1 k1)
  obtain ⟨pb, c1, c2, c3, c4, c5⟩ := fitCoreC_any_state hsne hq
  refine ⟨h1, h2, hne0, sorted, pb, st1, k1, k2, k1.nodup_iff.2 hnd, ?_, c1, ?_, ?_, ?_, ?_, ?_⟩
  · obtain ⟨st2, d1, -⟩ := c5 {} rfl
    unfold fitParamsC fitNumericalC
    rw [h1]
    simp only [hsp, bind, Except.bind, d1, pure, Except.pure, Except.ok.injEq, Prod.mk.injEq]
    rw [← h3] at ho hf
    exact ⟨ho, hf⟩
  · rw [← hf, ← h3]; exact c3
  · rw [← hf, ← h3]; exact c4
  · rw [← hu, ← h3]; simp only [c2]
  · intro fx hfx; exact k3 fx.values (by rw [hfx]; rfl)
  · intro hn
    unfold sortUserSplits at hso
    simp only [hnd, if_true, hn, Option.map_none, Except.ok.injEq, Prod.mk.injEq] at hso
    exact hso.1.symm

/-- C120: a fit which succeeds had valid arguments (C104_checks): at least one user split, no split twice, and the flags, if given, are Python bools, one
per split. -/
theorem C120_accepted (h : fitUserParamsC p sc det rnd solver old u recs = .ok (old', u', f)) : checkParametersC p = .ok () ∧ u.splits ≠ [] ∧ u.splits.Nodup ∧
    ∀ fx, u.fixed = some fx → fx.values.length = u.splits.length ∧ fx.numpy = false := by
  obtain ⟨h1, h2, h3, sorted, pb, st1, k1, -, k3, -⟩ := userC_facts h
  refine ⟨h1, h3, k1.nodup_iff.1 k3, fun fx hfx => ?_⟩
  obtain ⟨a, b⟩ := checkUserSplits_ok.1 h2 fx hfx
  refine ⟨a, ?_⟩
  cases hn : fx.numpy with
  | false => rfl
  | true =>
    have := b hn
    rw [this] at a
    exact absurd (List.length_eq_zero_iff.1 a.symm) h3

/-- C120: the table of a fit with user splits, with or without flags, is that of a fit whose pre-binning finds exactly these splits, in increasing order and
rounded to `split_digits` digits if asked for. -/
theorem C120_as_prebinning (h : fitUserParamsC p sc det rnd solver old u recs = .ok (old', u', f)) : ∃ sorted : List α, sorted.Perm u.splits ∧
    sorted.Pairwise (· ≤ ·) ∧ fitParamsC p sc det (fun _ => sorted.map (asCutC p rnd)) solver old recs = .ok (old', f) := by
  obtain ⟨-, -, -, sorted, pb, st1, k1, k2, -, k4, -⟩ := userC_facts h
  exact ⟨sorted, k1, k2, by rw [← roundedC_asCut]; exact k4⟩

theorem userC_demote (h : fitUserParamsC p sc det rnd solver old u recs = .ok (old', u', f)) : ∃ (sorted : List α) (s : String),
    sorted.Perm u.splits ∧ sorted.Pairwise (· ≤ ·) ∧
    fitParamsC p sc det (fun _ => sorted.map (p.rounded rnd)) (fun cells => (solver cells).demote) old recs = .ok (old', { f with status := s }) := by
  obtain ⟨h1, -, -, sorted, pb, st1, k1, k2, -, k4, -⟩ := userC_facts h
  obtain ⟨s, hs⟩ := fitNumericalC_demote (fitParamsC_fit k4)
  refine ⟨sorted, s, k1, k2, ?_⟩
  unfold fitParamsC
  rw [h1]
  exact hs

/-- C120: the splits of the result are user splits (rounded to `split_digits` digits if asked for), in increasing order. -/
theorem C120_splits (hmono : ∀ d, Monotone (rnd d)) (h : fitUserParamsC p sc det rnd solver old u recs = .ok (old', u', f)) :
    f.splits.Pairwise (· ≤ ·) ∧ (∀ s ∈ f.splits, ∃ t ∈ u.splits, s = asCutC p rnd t) ∧ (p.splitDigits = none → f.splits.Pairwise (· < ·)) := by
  obtain ⟨-, -, -, sorted, pb, st1, k1, k2, k3, -, k5, k6, -⟩ := userC_facts h
  have hsub : f.splits.Sublist (sorted.map (p.rounded rnd)) := by
    rw [k6]
    exact (select_sublist _ _).trans (computePrebinsC_spec _ _ _ _ _ k5).1
  refine ⟨(List.pairwise_map.2 (k2.imp fun hab => roundedC_mono p hmono hab)).sublist hsub, fun s hs => ?_, fun hc => ?_⟩
  · obtain ⟨t, ht, rfl⟩ := List.mem_map.1 (hsub.subset hs)
    exact ⟨t, k1.mem_iff.1 ht, congrFun (roundedC_asCut p rnd) t⟩
  · have : p.rounded rnd = id := by unfold ParamsC.rounded; rw [hc]
    rw [this, List.map_id] at hsub
    exact ((k2.and k3).imp fun ⟨a, b⟩ => lt_of_le_of_ne a b).sublist hsub

/-- C120: the limits given to the constructor hold for the bins found among user splits, flagged or not: number of bins, `min_bin_size * N` and `max_bin_size * N`
records per bin (less than one record more) for `N` records passed to `fit`; no bin is empty. -/
theorem C120_limits (hull : List ℚ → Option ℚ) (pv : ℚ → ℝ → ℕ → ℚ → ℝ → ℕ → ℝ) (h : fitUserParamsC p sc det rnd solver old u recs = .ok (old', u', f))
    (hr : RespectsC (p.cfgFixed hull pv recs.length u'.fixed) solver) (hne : f.splits ≠ []) :
    (∀ b, p.minBins = some b → b ≤ f.splits.length + 1) ∧ (∀ b, p.maxBins = some b → (f.splits.length : ℤ) + 1 ≤ b) ∧
    ∀ k ≤ f.splits.length, ∃ (cnt : ℕ) (m : ℚ) (sd : ℝ), RowShows f.rows k cnt m sd ∧ 0 < cnt ∧
      (∀ q, p.minBinSize = some (.num q) → q * (recs.length : ℚ) ≤ (cnt : ℚ)) ∧
      (∀ q, p.maxBinSize = some (.num q) → (cnt : ℚ) < q * (recs.length : ℚ) + 1) := by
  obtain ⟨sorted, s, -, -, h3⟩ := userC_demote h
  exact C104_limits p hull pv sc det _ _ old old' recs { f with status := s } (respectsC_demote hr) h3 hne

/-- C120: every value of `monotonic_trend`, for user splits: the Means of the bins, truncated towards zero to six digits, follow the trend. -/
theorem C120_trend (hull : List ℚ → Option ℚ) (pv : ℚ → ℝ → ℕ → ℚ → ℝ → ℕ → ℝ) (h : fitUserParamsC p sc det rnd solver old u recs = .ok (old', u', f))
    (hr : RespectsC (p.cfgFixed hull pv recs.length u'.fixed) solver) (hne : f.splits ≠ []) (cnt : ℕ → ℕ) (m : ℕ → ℚ) (sd : ℕ → ℝ)
    (hm : ∀ k ≤ f.splits.length, RowShows f.rows k (cnt k) (m k) (sd k)) :
    RowsFollow (f.splits.length + 1) (fun k => truncRat (m k * 1000000)) p.trend := by
  obtain ⟨sorted, s, -, -, h3⟩ := userC_demote h
  exact C104_trend p hull pv sc det _ _ old old' recs { f with status := s } (respectsC_demote hr) h3 hne cnt m sd hm

/-- C120: with "ascending" ("descending") the Means do not decrease (increase) by 2e-6 or more. -/
theorem C120_monotone (hull : List ℚ → Option ℚ) (pv : ℚ → ℝ → ℕ → ℚ → ℝ → ℕ → ℝ) (h : fitUserParamsC p sc det rnd solver old u recs = .ok (old', u', f))
    (hr : RespectsC (p.cfgFixed hull pv recs.length u'.fixed) solver) (hne : f.splits ≠ []) (cnt : ℕ → ℕ) (m : ℕ → ℚ) (sd : ℕ → ℝ)
    (hm : ∀ k ≤ f.splits.length, RowShows f.rows k (cnt k) (m k) (sd k)) (j k : ℕ) (hjk : j < k) (hk : k ≤ f.splits.length) :
    (p.trend = .ascending → m j < m k + 2 / 1000000) ∧ (p.trend = .descending → m k < m j + 2 / 1000000) := by
  obtain ⟨sorted, s, -, -, h3⟩ := userC_demote h
  exact C104_monotone p hull pv sc det _ _ old old' recs { f with status := s } (respectsC_demote hr) h3 hne cnt m sd hm j k hjk hk

/-- C120: `min_mean_diff` for user splits. -/
theorem C120_min_mean_diff (hull : List ℚ → Option ℚ) (pv : ℚ → ℝ → ℕ → ℚ → ℝ → ℕ → ℝ) (h : fitUserParamsC p sc det rnd solver old u recs = .ok (old', u', f))
    (hr : RespectsC (p.cfgFixed hull pv recs.length u'.fixed) solver) (cnt : ℕ → ℕ) (m : ℕ → ℚ) (sd : ℕ → ℝ)
    (hm : ∀ k ≤ f.splits.length, RowShows f.rows k (cnt k) (m k) (sd k)) (v : ℚ) (hv : p.minMeanDiff = .num v) (k : ℕ)
    (hk : k + 1 ≤ f.splits.length) : v ≤ |m k - m (k + 1)| := by
  obtain ⟨sorted, s, -, -, h3⟩ := userC_demote h
  exact C104_min_mean_diff p hull pv sc det _ _ old old' recs { f with status := s } (respectsC_demote hr) h3 cnt m sd hm v hv k hk

/-- C120: `max_pvalue` for user splits. -/
theorem C120_pvalues (hull : List ℚ → Option ℚ) (pv : ℚ → ℝ → ℕ → ℚ → ℝ → ℕ → ℝ) (h : fitUserParamsC p sc det rnd solver old u recs = .ok (old', u', f))
    (hr : RespectsC (p.cfgFixed hull pv recs.length u'.fixed) solver) (cnt : ℕ → ℕ) (m : ℕ → ℚ) (sd : ℕ → ℝ)
    (hm : ∀ k ≤ f.splits.length, RowShows f.rows k (cnt k) (m k) (sd k)) (v : ℚ) (hv : p.maxPvalue = some (.num v)) (j k : ℕ)
    (hjk : j < k) (hk : k ≤ f.splits.length) (hpol : p.policy = .consecutive → k = j + 1) :
    pv (m j) (sd j) (cnt j) (m k) (sd k) (cnt k) ≤ (v : ℝ) := by
  obtain ⟨sorted, s, -, -, h3⟩ := userC_demote h
  exact C104_pvalues p hull pv sc det _ _ old old' recs { f with status := s } (respectsC_demote hr) h3 cnt m sd hm v hv j k hjk hk hpol

/-- C120: a split flagged as fixed is (rounded if asked for) a split of the result, if the solver found a solution. -/
theorem C120_fixed (hull : List ℚ → Option ℚ) (pv : ℚ → ℝ → ℕ → ℚ → ℝ → ℕ → ℝ) (h : fitUserParamsC p sc det rnd solver old u recs = .ok (old', u', f))
    (hr : RespectsC (p.cfgFixed hull pv recs.length u'.fixed) solver) (hs : f.status = "OPTIMAL" ∨ f.status = "FEASIBLE")
    (s : α) (hf : IsFixed u s) : asCutC p rnd s ∈ f.splits := by
  obtain ⟨-, -, -, sorted, pb, st1, k1, k2, k3, -, k5, k6, k7, k8, k9, -⟩ := userC_facts h
  obtain ⟨fx, hfx, hmem⟩ := hf
  obtain ⟨fx1, f1, f2, f3⟩ := k9 fx hfx
  have hmem' : (p.rounded rnd s, true) ∈ (sorted.map (p.rounded rnd)).zip fx1 := by
    rw [List.zip_map_left]
    exact List.mem_map.2 ⟨(s, true), (f3 _).2 hmem, rfl⟩
  obtain ⟨fx', g1, g2, g3⟩ := computePrebinsC_fixed f1 (by simpa using f2) k5
  have hin := g3 _ hmem'
  obtain ⟨i, hi, hie⟩ := List.mem_iff_getElem.1 hin
  have hi1 : i < pb.splits.length := by simp at hi; omega
  have hi2 : i < fx'.length := by simp at hi; omega
  rw [List.getElem_zip, Prod.mk.injEq] at hie
  obtain ⟨-, h2, h3, h4⟩ := computePrebinsC_spec _ _ _ _ _ k5
  have hlen : pb.cells.length = pb.splits.length + 1 := by rw [h3]; simp [prebinCells, prebinNumber]
  have hl := solve_length pb.cells.length (solver pb.cells)
  have hn : ((p.cfgFixed hull pv recs.length u'.fixed).input pb.cells).n = pb.cells.length := by simp [SolverCfgC.input, ContInput.n]
  have hs' : Solved (solve ((p.cfgFixed hull pv recs.length u'.fixed).input pb.cells).n (solver pb.cells)) := by
    rw [hn]; unfold Solved; rw [← k7]; exact hs
  obtain ⟨a, ha, hd⟩ := solved_diag (hr pb.cells) hs'
  obtain ⟨-, -, -, -, -, -, -, -, -, hfs⟩ := ha
  rw [hn] at hfs hd
  have hgo : ((p.cfgFixed hull pv recs.length u'.fixed).opts pb.cells).fixed = some fun i => fx'.getD i false := by
    show u'.fixed.map _ = _
    rw [k8, Option.map_map, g1]
    rfl
  have hfi : (fun i => fx'.getD i false) i = true := by
    simp only [List.getD_eq_getElem _ _ hi2, hie.2]
  have hx := hfs _ hgo i (by omega) hfi
  have hsol : solOf (solve pb.cells.length (solver pb.cells)).2 i = true := by
    rw [← hd i (by omega)]
    unfold diag
    rw [hx]
    rfl
  rw [← congrFun (roundedC_asCut p rnd) s, k6, ← hie.1]
  refine mem_select hi1 (by simp [hl]; omega) ?_
  rw [List.getElem_dropLast]
  unfold solOf at hsol
  rwa [List.getD_eq_getElem _ _ (by omega)] at hsol

/-- C120: without flags the object keeps its user splits. -/
theorem C120_unflagged_kept (h : fitUserParamsC p sc det rnd solver old u recs = .ok (old', u', f)) (hn : u.fixed = none) : u' = u := by
  obtain ⟨-, -, -, sorted, pb, st1, -, -, -, -, k5, -, -, k8, -, k10⟩ := userC_facts h
  obtain ⟨a, b⟩ := computePrebinsC_unflagged (by rw [k10 hn]) k5
  rw [k8, a, b, k10 hn]
  obtain ⟨us, fx⟩ := u
  simp only at hn
  subst hn
  rfl

/-- C120, finding: after a fit with flags every further fit of the object is refused, whatever the data and the other arguments. -/
theorem C120_second_fit_refused (h : fitUserParamsC p sc det rnd solver old u recs = .ok (old', u', f)) (hf : u.fixed ≠ none) (p2 : ParamsC) (sc2 : SpecialCodes α)
    (det2 : Option (List (RecC α) → List Bool)) (rnd2 : ℤ → α → α) (solver2 : SolverC) (old2 : MissingStats) (recs2 : List (RecC α)) :
    ∃ e, fitUserParamsC p2 sc2 det2 rnd2 solver2 old2 u' recs2 = .error e := by
  obtain ⟨-, -, -, sorted, pb, st1, -, -, -, -, k5, -, -, k8, k9, -⟩ := userC_facts h
  obtain ⟨fx, hfx⟩ := Option.ne_none_iff_exists'.1 hf
  obtain ⟨fx1, f1, f2, -⟩ := k9 fx hfx
  obtain ⟨fx', k3, -⟩ := computePrebinsC_fixed f1 (by simpa using f2) k5
  have hu : u'.fixed = some ⟨fx', true⟩ := by rw [k8, k3]; rfl
  cases hres : fitUserParamsC p2 sc2 det2 rnd2 solver2 old2 u' recs2 with
  | error e => exact ⟨e, rfl⟩
  | ok r =>
    obtain ⟨-, -, -, g⟩ := C120_accepted (old' := r.1) (u' := r.2.1) (f := r.2.2) hres
    exact absurd (g _ hu).2 (by simp)

/-- The flags left after the refinement belong to the remaining splits. -/
theorem computePrebinsC_zip {recs : List (RecC α)} {splits : List α} {st : PrebinState α} {pb : PrebinsC α} {fx : List Bool}
    (hfx : st.fixed = some fx) (hl : fx.length = splits.length) (h : computePrebinsC false recs st splits = .ok pb) :
    ∃ fx', pb.st.fixed = some fx' ∧ fx'.length = pb.splits.length ∧ (pb.splits.zip fx').Sublist (splits.zip fx) := by
  induction hn : splits.length using Nat.strong_induction_on generalizing splits st fx with
  | _ n ih =>
    rw [computePrebinsC] at h
    simp only [hfx] at h
    split_ifs at h with h0 h1 h3
    · have hm := maskSplits_any (c := false) (n := splits.length) (by omega)
        (by simp [emptyMask, prebinCells, prebinNumber]) h1
      have hlt := length_select_lt hm.1 hm.2
      generalize maskSplits false (emptyMask (prebinCells false (prebinNumber false splits) splits recs)) = mask at hm hlt h
      have hzip : ∀ (l : List α) (f : List Bool) (m : List Bool), f.length = l.length →
          (select l m).zip (select f m) = select (l.zip f) m := by
        intro l
        induction l with
        | nil => intro f m hf; rw [List.length_nil, List.length_eq_zero_iff] at hf; subst hf; simp [select]
        | cons a l ih =>
          intro f m hf
          cases f with
          | nil => simp at hf
          | cons b f =>
            cases m with
            | nil => simp [select]
            | cons c m =>
              have := ih f m (by simpa using hf)
              unfold select at this ⊢
              cases c <;> simp [this]
      obtain ⟨fx', h5, h6, h7⟩ := ih _ (hn ▸ hlt) (fx := select fx (mask.map (!·))) rfl
        (by rw [length_select _ _ (by simp [hm.1, hl]), length_select _ _ (by simp [hm.1])]) h rfl
      refine ⟨fx', h5, h6, h7.trans ?_⟩
      rw [hzip _ _ _ hl]
      exact select_sublist _ _
    · cases h; exact ⟨fx, hfx, hl, List.Sublist.refl _⟩

/-- C120: if `fit` with user splits, flagged or not, reports OPTIMAL, no selection of the user splits which contains the fixed ones and meets the arguments has a sum of
distances between the means of its intervals and the overall mean larger by more than 10⁻⁶ per interval than the table at the returned splits — if no interval of the
user splits is empty; otherwise no selection of the splits `ps` left by the refinement.  Whatever `gamma` is. -/
theorem C120_optimal (hull : List ℚ → Option ℚ) (pv : ℚ → ℝ → ℕ → ℚ → ℝ → ℕ → ℝ) (hu : UnitWeights recs) (hp : PlainTrendC p (splitDataC sc det recs).clean)
    (hmono : ∀ d, Monotone (rnd d)) (hnd : (u.splits.map (asCutC p rnd)).Nodup) (h : fitUserParamsC p sc det rnd solver old u recs = .ok (old', u', f))
    (hr : RespectsC (p.cfgFixed hull pv recs.length u'.fixed) solver) (hs : f.status = "OPTIMAL") :
    ∃ ps : List α, f.splits.Sublist ps ∧ (∀ s ∈ ps, ∃ t ∈ u.splits, s = asCutC p rnd t) ∧
      (CutsFilled (splitDataC sc det recs).clean ((u.splits.insertionSort (· ≤ ·)).map (asCutC p rnd)) → ps = (u.splits.insertionSort (· ≤ ·)).map (asCutC p rnd)) ∧
      ∀ cs : List α, cs.Sublist ps → (∀ s, IsFixed u s → asCutC p rnd s ∈ cs) → CutsMeetC p pv recs.length (splitDataC sc det recs).clean cs →
        cutDistance (splitDataC sc det recs).clean cs ≤ cutDistance (splitDataC sc det recs).clean f.splits + ((cs.length : ℚ) + 1) / 1000000 := by
  obtain ⟨hacc, -, -, sorted, pb, st1, k1, k2, k3, -, k5, k6, k7, k8, k9, k10⟩ := userC_facts h
  have hsorted : u.splits.insertionSort (· ≤ ·) = sorted :=
    List.Perm.eq_of_pairwise (fun a b _ _ h1 h2 => le_antisymm h1 h2) (List.pairwise_insertionSort _ _) k2
      ((List.perm_insertionSort _ _).trans k1.symm)
  obtain ⟨a1, a2, a3⟩ := acceptedC_num hacc
  have hclean : ∀ r ∈ (splitDataC sc det recs).clean, r.x ≠ none ∧ r.y ≠ none := fun r hr => (cleanC_known hr).2
  have huc : UnitWeights (splitDataC sc det recs).clean := fun r hr => hu r (cleanC_known hr).1
  set c := p.cfgFixed hull pv recs.length u'.fixed with hc0
  obtain ⟨hsub, hne', hcells, hpos⟩ := computePrebinsC_spec _ _ _ _ _ k5
  simp only [prebinNumber, Bool.false_eq_true, if_false] at hcells
  have hsort : (sorted.map (p.rounded rnd)).Pairwise (· ≤ ·) := List.pairwise_map.2 (k2.imp fun hab => roundedC_mono p hmono hab)
  have hps : pb.splits.Pairwise (· ≤ ·) := hsort.sublist hsub
  have hlen : pb.cells.length = pb.splits.length + 1 := by rw [hcells]; simp [prebinCells]
  have hpos' : 0 < pb.splits.length := List.length_pos_iff.2 hne'
  have hn : (c.input pb.cells).n = pb.cells.length := by simp [SolverCfgC.input, ContInput.n]
  have hw : (c.input pb.cells).Wf := by
    refine ⟨by simp [SolverCfgC.input], by simp [SolverCfgC.input], by simp [SolverCfgC.input]; omega, ?_⟩
    intro x hx
    simp only [SolverCfgC.input, List.mem_map] at hx
    obtain ⟨d, hd, rfl⟩ := hx
    exact Nat.pos_of_ne_zero (hpos d hd)
  have hnd' : (sorted.map (p.rounded rnd)).Nodup := by rw [roundedC_asCut]; exact ((k1.map _).nodup_iff).2 hnd
  refine ⟨pb.splits, by rw [k6]; exact select_sublist _ _, fun s hs => ?_, fun hfl => ?_, fun cs hcs hfix hm => ?_⟩
  · obtain ⟨t, ht, rfl⟩ := List.mem_map.1 (hsub.subset hs)
    exact ⟨t, k1.mem_iff.1 ht, congrFun (roundedC_asCut p rnd) t⟩
  · rw [hsorted, ← roundedC_asCut] at hfl ⊢
    exact computePrebinsC_filled hclean huc hsort hfl st1 k5
  · obtain ⟨m, hm1, hm2⟩ := sublist_mask hcs
    have hc := cutBinsC hclean huc hps (R := m ++ [true]) (by simp [hm1]) (getLast_append_true m) c
    rw [List.dropLast_concat, hm2, ← hcells] at hc
    have hcf := cutBinsC hclean huc hps (R := (solve pb.cells.length (solver pb.cells)).2) (by rw [solve_length]; omega) (hr.last pb.cells (by omega)) c
    rw [← hcells, ← k6] at hcf
    have hplain : p.trend = .none ∨ p.trend = .ascending ∨ p.trend = .descending ∨ p.trend = .peak ∨ p.trend = .valley := by
      rcases hp with h | ⟨h, -⟩ <;> tauto
    have hres : resolveTrendC hull pb.cells p.trend = .ok (plainTrendC p.trend) := by
      rcases hplain with h | h | h | h | h <;> rw [h] <;> rfl
    have ho : (p.cfg hull pv recs.length).opts pb.cells =
      { trend := plainTrendC p.trend, minBins := p.minBins, maxBins := p.maxBins,
        minSize := p.minBinSize.map (ceilSize recs.length), maxSize := p.maxBinSize.map (ceilSize recs.length), gamma := decide (p.gamma ≠ .num 0) } := by
      simp only [ParamsC.cfg, ParamsC.options, hres, bind, Except.bind, pure, Except.pure]
    obtain ⟨t, o, ho', -, -, hch, -⟩ := optionsC_ok p hull pv recs.length pb.cells (by omega)
    rw [← ho'] at hch
    obtain ⟨s1, s2⟩ := one_signed huc (p.cfg hull pv recs.length) hcells
    have hss : ((c.opts pb.cells).trend ≠ .peak ∧ (c.opts pb.cells).trend ≠ .valley) ∨
      (∀ s e, s ≤ e → e < (c.input pb.cells).n → 0 ≤ binMean (c.input pb.cells).recs (c.input pb.cells).sum s e) ∨
      (∀ s e, s ≤ e → e < (c.input pb.cells).n → binMean (c.input pb.cells).recs (c.input pb.cells).sum s e ≤ 0) := by
      rcases hp with hp | ⟨-, hp | hp⟩
      · left
        show ((p.cfg hull pv recs.length).opts pb.cells).trend ≠ .peak ∧ ((p.cfg hull pv recs.length).opts pb.cells).trend ≠ .valley
        rw [ho]
        rcases hp with hp | hp | hp <;> simp [hp, plainTrendC]
      · exact Or.inr (Or.inl fun s e _ _ => s1 hp s e)
      · exact Or.inr (Or.inr fun s e _ _ => s2 hp s e)
    have hadm := hc.admissible (o := (p.cfg hull pv recs.length).opts pb.cells) a1 hm (by rw [ho]) (by rw [ho]) (by rw [ho]) (by rw [ho]) (by rw [ho]) (by rw [ho])
    have hflags : ∀ g, (c.opts pb.cells).fixed = some g → ∀ i, i + 1 < (c.input pb.cells).n → g i = true → solOf (m ++ [true]) i = true := by
      intro g hg' i hi hgi
      rw [hn] at hi
      have hg2 : (u'.fixed.map fun l i => l.values.getD i false) = some g := hg'
      cases hpf : pb.st.fixed with
      | none => rw [k8, hpf] at hg2; cases hg2
      | some fx' =>
        rw [k8, hpf] at hg2
        have hge : g = fun i => fx'.getD i false := (Option.some.inj hg2).symm
        rw [hge] at hgi
        cases huf : u.fixed with
        | none =>
          have := (computePrebinsC_unflagged (by rw [k10 huf]) k5).1
          rw [hpf] at this; cases this
        | some fx =>
          obtain ⟨fx1, q1, q2, q3⟩ := k9 fx huf
          obtain ⟨gx, g1, g2, g3⟩ := computePrebinsC_zip q1 (by simpa using q2) k5
          rw [hpf] at g1
          obtain rfl := Option.some.inj g1
          have hil : i < pb.splits.length := by omega
          have hi2 : i < fx'.length := by omega
          simp only [List.getD_eq_getElem _ _ hi2] at hgi
          unfold solOf
          rw [List.getD_append _ _ _ _ (by omega), List.getD_eq_getElem _ _ (by omega)]
          refine mem_select_mask (hnd'.sublist hsub) hm1 hil ?_
          have hin : (pb.splits[i], true) ∈ (sorted.map (p.rounded rnd)).zip fx1 := g3.subset (List.mem_iff_getElem.2 ⟨i, by simp; omega, by rw [List.getElem_zip, hgi]⟩)
          rw [List.zip_map_left] at hin
          obtain ⟨⟨s0, b0⟩, hs0, hs1⟩ := List.mem_map.1 hin
          simp only [Prod.map_apply, id_eq, Prod.mk.injEq] at hs1
          obtain ⟨e1, rfl⟩ := hs1
          rw [hm2, ← e1, congrFun (roundedC_asCut p rnd) s0]
          exact hfix s0 ⟨fx, huf, (q3 _).1 hs0⟩
    have hadm' : AdmissibleMean (c.opts pb.cells) (c.input pb.cells).n (solOf (m ++ [true])) (c.input pb.cells).recs (mean6 (c.input pb.cells)) :=
      ⟨hadm.binning, hadm.minBins, hadm.maxBins, hadm.minSize, hadm.maxSize, hadm.trend, hflags⟩
    have hst : (solve (c.input pb.cells).n (solver pb.cells)).1 = "OPTIMAL" := by rw [hn, ← k7]; exact hs
    have key := (C49_optimal_partial (o := c.opts pb.cells) (g := c.gamma) a3 hw hch hss (hr pb.cells) hst _ hadm' (hc.tests a2 hw hm rfl rfl) (hc.apart hm rfl)).2
    rw [← hn] at hcf
    rw [hc.distance, hcf.distance] at key
    have hcard : ((binsOf (c.input pb.cells).n (solOf (m ++ [true]))).card : ℚ) ≤ (cs.length : ℚ) + 1 := by
      have := card_binsOf_le (c.input pb.cells).n (solOf (m ++ [true]))
      rw [hc.num] at this
      exact_mod_cast this
    refine le_trans key (add_le_add le_rfl ?_)
    exact div_le_div_of_nonneg_right hcard (by norm_num)

end OptBinning
