import Verif.Lemmas.UserParams
import Verif.Spec.UserParams
import Verif.Props.ParamsFit
import Verif.Props.FitOptimal
import Verif.Props.FitOptimalEx

/-!
# C117: fits with `user_splits` and `user_splits_fixed`
-/
namespace OptBinning
open OptBinning.Spec

variable {α : Type*} [LinearOrder α] {p : Params} {sc : SpecialCodes α} {so : SplitOpts α} {rnd : ℤ → α → α} {solver : Solver} {u u' : UserSplits α} {recs : List (Rec α)}
  {f : Fitted α}

theorem fitUserParams_ok (h : fitUserParams p sc so rnd solver u recs = .ok (u', f)) : checkParameters p = .ok () ∧ checkUserSplits u = .ok () ∧
    ∃ st', fitUserRounded { keepPure := p.divergence.keepsPure } sc so solver { userSplits := u.splits, fixed := u.fixed.map FlagArray.values } (p.rounded rnd) recs =
      .ok (st', f) ∧ u' = ⟨st'.userSplits, st'.fixed.map fun l => ⟨l, true⟩⟩ := by
  unfold fitUserParams at h
  split at h
  · cases h
  rename_i h1
  split at h
  · cases h
  rename_i h2
  split at h
  · cases h
  rename_i r h3
  simp only [Except.ok.injEq, Prod.mk.injEq] at h
  obtain ⟨rfl, rfl⟩ := h
  exact ⟨h1, h2, r.1, h3, rfl⟩

theorem checkUserSplits_ok : checkUserSplits u = .ok () ↔
    ∀ fx, u.fixed = some fx → fx.values.length = u.splits.length ∧ (fx.numpy = true → fx.values = []) := by
  unfold checkUserSplits
  cases u.fixed with
  | none => simp
  | some fx =>
    simp only [Option.some.injEq, forall_eq']
    split_ifs with h1 h2
    · simp only [Bool.and_eq_true, Bool.not_eq_true', List.isEmpty_eq_false_iff] at h1
      simp only [false_iff, reduceCtorEq]
      exact fun h => h1.2 (h.2 h1.1)
    · simp only [false_iff, reduceCtorEq]
      exact fun h => h2 h.1.symm
    · simp only [Bool.and_eq_true, Bool.not_eq_true', List.isEmpty_eq_false_iff, not_and, not_not] at h1 h2
      exact ⟨fun _ => ⟨h2.symm, h1⟩, fun _ => rfl⟩

/-- C117: a fit which succeeds had valid arguments (C102_checks): at least one user split, no split twice, and the flags, if given, are Python bools, one
per split. -/
theorem C117_accepted (h : fitUserParams p sc so rnd solver u recs = .ok (u', f)) : checkParameters p = .ok () ∧ u.splits ≠ [] ∧ u.splits.Nodup ∧
    ∀ fx, u.fixed = some fx → fx.values.length = u.splits.length ∧ fx.numpy = false := by
  obtain ⟨h1, h2, st', h3, -⟩ := fitUserParams_ok h
  obtain ⟨sorted, st1, pb, g1, g2, -⟩ := fitUserRounded_numerical h3
  refine ⟨h1, g1, g2, fun fx hfx => ?_⟩
  obtain ⟨a, b⟩ := checkUserSplits_ok.1 h2 fx hfx
  refine ⟨a, ?_⟩
  cases hn : fx.numpy with
  | false => rfl
  | true =>
    have := b hn
    rw [this] at a
    exact absurd (List.length_eq_zero_iff.1 a.symm) g1

/-- What a successful fit does with the user splits. -/
theorem user_facts (h : fitUserParams p sc so rnd solver u recs = .ok (u', f)) :
    ∃ (sorted : List α) (pb : Prebins α) (st1 : PrebinState α), sorted.Perm u.splits ∧ sorted.Pairwise (· ≤ ·) ∧ sorted.Nodup ∧
      fitParams p sc so (fun _ => sorted.map (p.rounded rnd)) solver recs = .ok f ∧
      computePrebins { keepPure := p.divergence.keepsPure, catUser := false } (splitData sc so recs).clean st1 (sorted.map (p.rounded rnd)) = .ok pb ∧
      u' = ⟨pb.st.userSplits, pb.st.fixed.map fun l => ⟨l, true⟩⟩ ∧
      (∀ fx, u.fixed = some fx → ∃ fx1, st1.fixed = some fx1 ∧ fx1.length = sorted.length ∧ ∀ q, q ∈ sorted.zip fx1 ↔ q ∈ u.splits.zip fx.values) ∧
      (u.fixed = none → st1 = { userSplits := u.splits }) := by
  obtain ⟨h1, h2, st', h3, hu⟩ := fitUserParams_ok h
  obtain ⟨sorted, st1, pb, g1, g2, g3, g4, g5, g6⟩ := fitUserRounded_numerical h3
  have hl : ∀ fx, u.fixed.map FlagArray.values = some fx → fx.length = u.splits.length := by
    intro fx hfx
    cases hf : u.fixed with
    | none => rw [hf] at hfx; cases hfx
    | some g =>
      rw [hf, Option.map_some, Option.some.injEq] at hfx
      rw [← hfx]
      exact (checkUserSplits_ok.1 h2 g hf).1
  obtain ⟨k1, k2, k3, -⟩ := sortUserSplits_sorted hl g3
  refine ⟨sorted, pb, st1, k1, k2, k1.nodup_iff.2 g2, ?_, g4, ?_, ?_, ?_⟩
  · unfold fitParams; rw [h1]; exact g6
  · rw [hu, g5]
  · intro fx hfx; exact k3 fx.values (by rw [hfx]; rfl)
  · intro hn
    unfold sortUserSplits at g3
    split_ifs at g3
    simp only [hn, Option.map_none, Except.ok.injEq, Prod.mk.injEq] at g3
    exact g3.1.symm

/-- C117: the bins of a fit with user splits, with or without flags, are those of a fit whose pre-binning finds exactly these splits, in increasing
order and rounded to `split_digits` digits if asked for. -/
theorem C117_as_prebinning (h : fitUserParams p sc so rnd solver u recs = .ok (u', f)) : ∃ sorted : List α, sorted.Perm u.splits ∧ sorted.Pairwise (· ≤ ·) ∧
    fitParams p sc so (fun _ => sorted.map (p.rounded rnd)) solver recs = .ok f := by
  obtain ⟨sorted, pb, st1, h1, h2, -, h3, -⟩ := user_facts h
  exact ⟨sorted, h1, h2, h3⟩

theorem computePrebins_unflagged {cfg : PrebinCfg} {recs : List (Rec α)} {splits : List α} {st : PrebinState α} {pb : Prebins α}
    (hn : st.fixed = none) (h : computePrebins cfg recs st splits = .ok pb) : pb.st.fixed = none ∧ pb.st.userSplits = st.userSplits := by
  induction hl : splits.length using Nat.strong_induction_on generalizing splits st with
  | _ n ih =>
    rw [computePrebins] at h
    simp only [hn] at h
    split_ifs at h with h1 h2 h3
    · cases h; exact ⟨hn, rfl⟩
    · cases h; exact ⟨rfl, rfl⟩
    · have hm := maskSplits_any (c := cfg.catUser) (n := splits.length) (by omega)
        (by simp [pureMask, length_prebinCounts, prebinNumber]) h2
      exact ih _ (hl ▸ length_select_lt hm.1 hm.2) (st := { userSplits := st.userSplits, nRefinements := st.nRefinements + 1, flagMin := st.flagMin }) rfl h rfl
    · cases h; exact ⟨hn, rfl⟩

/-- C117: without flags, any distinct user splits are fitted, in whatever order they are given, whenever the fit with these splits (rounded) as pre-binning succeeds, with the
same result, and the object keeps its user splits. -/
theorem C117_unflagged (sorted : List α) (hn : u.fixed = none) (h0 : u.splits ≠ []) (hd : u.splits.Nodup) (hp : sorted.Perm u.splits)
    (hs : sorted.Pairwise (· ≤ ·)) (h : fitParams p sc so (fun _ => sorted.map (p.rounded rnd)) solver recs = .ok f) :
    fitUserParams p sc so rnd solver u recs = .ok (u, f) := by
  have hc := fitParams_accepted h
  have hf := fitParams_fit h
  have hsorted : u.splits.insertionSort (· ≤ ·) = sorted :=
    List.Perm.eq_of_pairwise (fun a b _ _ h1 h2 => le_antisymm h1 h2) (List.pairwise_insertionSort _ _) hs
      ((List.perm_insertionSort _ _).trans hp.symm)
  obtain ⟨us, fx⟩ := u
  simp only at hn h0 hd hp hsorted
  subst hn
  have hz : ¬ us.length = 0 := fun hc => h0 (List.length_eq_zero_iff.1 hc)
  have hso : sortUserSplits ({ userSplits := us } : PrebinState α) = .ok ({ userSplits := us }, sorted) := by
    simp only [sortUserSplits, hd, if_true, hsorted]
  have key : ∃ st', fitUserRounded { keepPure := p.divergence.keepsPure } sc so solver { userSplits := us } (p.rounded rnd) recs = .ok (st', f) ∧ st'.fixed = none ∧ st'.userSplits = us := by
    unfold fitNumerical fitFrom fitCore at hf
    simp only at hf
    cases hpb : computePrebins { keepPure := p.divergence.keepsPure, catUser := false } (splitData sc so recs).clean {} (sorted.map (p.rounded rnd)) with
    | error e => simp [hpb, bind, Except.bind] at hf
    | ok pb =>
      simp only [hpb, bind, Except.bind, pure, Except.pure, Except.ok.injEq] at hf
      obtain ⟨st2, h2⟩ := computePrebins_any_state (st0 := { userSplits := us }) rfl hpb
      obtain ⟨e1, e2⟩ := computePrebins_unflagged rfl h2
      refine ⟨st2, ?_, e1, e2⟩
      unfold fitUserRounded fitFrom fitCore
      simp only [hz, if_false, bind, Except.bind, hso, h2, pure, Except.pure, Except.ok.injEq, Prod.mk.injEq, true_and]
      exact hf
  obtain ⟨st', k1, k2, k3⟩ := key
  unfold fitUserParams
  rw [hc]
  simp only [checkUserSplits, Option.map_none, k1, k2, k3]

theorem user_demote (h : fitUserParams p sc so rnd solver u recs = .ok (u', f)) : ∃ (sorted : List α) (s : String), sorted.Perm u.splits ∧ sorted.Pairwise (· ≤ ·) ∧
    fitParams p sc so (fun _ => sorted.map (p.rounded rnd)) (fun nev ev => (solver nev ev).demote) recs = .ok { f with status := s } := by
  obtain ⟨sorted, pb, st1, h1, h2, -, h3, -⟩ := user_facts h
  obtain ⟨s, hs⟩ := fitNumerical_demote (fitParams_fit h3)
  refine ⟨sorted, s, h1, h2, ?_⟩
  unfold fitParams
  rw [fitParams_accepted h3]
  exact hs

theorem fit_splits_sublist {cfg : PrebinCfg} {prebin : List (Rec α) → List α} (h : fitNumerical cfg sc so prebin solver recs = .ok f) :
    f.splits.Sublist (prebin (splitData sc so recs).clean) := by
  unfold fitNumerical fitFrom fitCore at h
  simp only at h
  cases hpb : computePrebins { cfg with catUser := false } (splitData sc so recs).clean {} (prebin (splitData sc so recs).clean) with
  | error e => simp [hpb, bind, Except.bind] at h
  | ok pb =>
    simp only [hpb, bind, Except.bind, pure, Except.pure, Except.ok.injEq] at h
    obtain ⟨hsub, -⟩ := computePrebins_spec _ _ _ _ _ hpb
    subst h
    refine List.Sublist.trans ?_ hsub
    simp only [fitOptimizer]
    split_ifs
    · exact List.Sublist.refl _
    · contradiction
    · exact select_sublist _ _

theorem rounded_asCut (p : Params) (rnd : ℤ → α → α) : p.rounded rnd = asCut p rnd := by
  funext t
  unfold Params.rounded asCut
  cases p.splitDigits <;> rfl

theorem rounded_mono (p : Params) (hmono : ∀ d, Monotone (rnd d)) : Monotone (p.rounded rnd) := by
  unfold Params.rounded
  split
  · exact monotone_id
  · exact hmono _

/-- The refinement leaves no split twice, unless the divergence keeps pure bins: the interval between equal splits is empty. -/
theorem computePrebins_strict {cfg : PrebinCfg} {recs : List (Rec α)} {splits : List α} {st : PrebinState α} {pb : Prebins α}
    (hc : cfg.catUser = false) (hk : cfg.keepPure = false) (hs : splits.Pairwise (· ≤ ·)) (h : computePrebins cfg recs st splits = .ok pb) :
    pb.splits.Pairwise (· < ·) := by
  obtain ⟨hsub, h1 | ⟨h0, h1, h2, h3⟩⟩ := computePrebins_spec _ _ _ _ _ h
  · rw [h1.1]; exact List.Pairwise.nil
  have hle := hs.sublist hsub
  have h3 := h3 hk
  rw [h1, h2, hc] at h3
  generalize pb.splits = ps at h0 h3 hle
  rw [← List.isChain_iff_pairwise, List.isChain_iff_getElem]
  intro i hi
  by_contra hlt
  have heq : ps[i] = ps[i + 1] := le_antisymm (List.pairwise_iff_getElem.1 hle i (i + 1) (by omega) hi (by omega)) (not_lt.1 hlt)
  have hno : ∀ x : Option α, digitize false ps x ≠ i + 1 := by
    intro x hx
    cases x with
    | none => simp only [digitize] at hx; omega
    | some v =>
      simp only [digitize, Bool.false_eq_true, if_false] at hx
      rw [← List.take_append_drop (i + 1) ps, List.countP_append] at hx
      by_cases hv : ps[i] ≤ v
      · have e1 : (ps.take (i + 1)).countP (fun s => decide (s ≤ v)) = i + 1 := by
          rw [List.countP_eq_length.2, List.length_take]
          · omega
          · intro a ha
            obtain ⟨j, hj, rfl⟩ := List.mem_iff_getElem.1 ha
            rw [List.getElem_take, decide_eq_true_eq]
            rw [List.length_take] at hj
            rcases Nat.lt_or_ge j i with h | h
            · exact le_trans (List.pairwise_iff_getElem.1 hle j i (by omega) (by omega) h) hv
            · have : j = i := by omega
              subst this; exact hv
        have e2 : 0 < (ps.drop (i + 1)).countP (fun s => decide (s ≤ v)) := by
          rw [List.countP_pos_iff]
          exact ⟨ps[i + 1], List.mem_iff_getElem.2 ⟨0, by simp; omega, by simp⟩, by rw [← heq]; simpa using hv⟩
        omega
      · have e1 : (ps.take (i + 1)).countP (fun s => decide (s ≤ v)) ≤ i := by
          have : ps.take (i + 1) = ps.take i ++ [ps[i]] := by rw [List.take_succ_eq_append_getElem (by omega)]
          rw [this, List.countP_append, List.countP_singleton]
          simp only [decide_eq_true_eq, hv, if_false, Nat.add_zero]
          exact le_trans List.countP_le_length (by simp)
        have e2 : (ps.drop (i + 1)).countP (fun s => decide (s ≤ v)) = 0 := by
          rw [List.countP_eq_zero]
          intro a ha
          obtain ⟨j, hj, rfl⟩ := List.mem_iff_getElem.1 ha
          rw [List.getElem_drop, decide_eq_true_eq]
          rw [List.length_drop] at hj
          intro hle'
          exact hv (le_trans (List.pairwise_iff_getElem.1 hle i (i + 1 + j) (by omega) (by omega) (by omega)) hle')
        omega
  have hz : ∀ e, (prebinCounts false (prebinNumber false ps) ps recs e).getD (i + 1) 0 = 0 := by
    intro e
    have hlen : i + 1 < prebinNumber false ps := by simp [prebinNumber]; omega
    unfold prebinCounts
    rw [List.getD_eq_getElem _ _ (by simpa using hlen), List.getElem_map, List.getElem_range]
    have : (recs.filter fun r => r.isEvent == e && digitize false ps r.x == i + 1) = [] := by
      rw [List.filter_eq_nil_iff]
      intro r _
      simp [hno r.x]
    rw [this]
    simp [truncWeight]
  have hmask : (pureMask (prebinCounts false (prebinNumber false ps) ps recs false) (prebinCounts false (prebinNumber false ps) ps recs true)).any id = true := by
    rw [List.any_eq_true]
    have hlen : i + 1 < prebinNumber false ps := by simp [prebinNumber]; omega
    have hz0 := hz false
    have hz1 := hz true
    have l0 : i + 1 < (prebinCounts false (prebinNumber false ps) ps recs false).length := by rw [length_prebinCounts]; exact hlen
    have l1 : i + 1 < (prebinCounts false (prebinNumber false ps) ps recs true).length := by rw [length_prebinCounts]; exact hlen
    rw [List.getD_eq_getElem _ _ l0] at hz0
    rw [List.getD_eq_getElem _ _ l1] at hz1
    refine ⟨true, List.mem_iff_getElem.2 ⟨i + 1, ?_, ?_⟩, rfl⟩
    · simp only [pureMask, List.length_map, List.length_zip]; omega
    · simp [pureMask, hz0, hz1]
  rw [hmask] at h3
  cases h3

/-- C117: the splits of the result are user splits (rounded to `split_digits` digits if asked for), in increasing order; none is there twice, unless `split_digits`
is given and the divergence keeps pure bins. -/
theorem C117_splits (hmono : ∀ d, Monotone (rnd d)) (h : fitUserParams p sc so rnd solver u recs = .ok (u', f)) :
    f.splits.Pairwise (· ≤ ·) ∧ (∀ s ∈ f.splits, ∃ t ∈ u.splits, s = asCut p rnd t) ∧
      (p.splitDigits = none ∨ p.divergence = .iv ∨ p.divergence = .js → f.splits.Pairwise (· < ·)) := by
  obtain ⟨sorted, pb, st1, h1, h2, h3, h4, h5, -⟩ := user_facts h
  have hsub : f.splits.Sublist (sorted.map (p.rounded rnd)) := fit_splits_sublist (fitParams_fit h4)
  have hmono' := rounded_mono p hmono
  have hsorted : (sorted.map (p.rounded rnd)).Pairwise (· ≤ ·) := List.pairwise_map.2 (h2.imp fun hab => hmono' hab)
  refine ⟨hsorted.sublist hsub, fun s hs => ?_, fun hc => ?_⟩
  · obtain ⟨t, ht, rfl⟩ := List.mem_map.1 (hsub.subset hs)
    exact ⟨t, h1.mem_iff.1 ht, congrFun (rounded_asCut p rnd) t⟩
  · rcases hc with hc | hc
    · rw [rounded_none rnd hc, List.map_id] at hsub
      exact ((h2.and h3).imp fun ⟨a, b⟩ => lt_of_le_of_ne a b).sublist hsub
    · have hk : p.divergence.keepsPure = false := by rcases hc with hc | hc <;> rw [hc] <;> rfl
      have hfit := fitParams_fit h4
      unfold fitNumerical fitFrom fitCore at hfit
      simp only at hfit
      cases hpb : computePrebins { keepPure := p.divergence.keepsPure, catUser := false } (splitData sc so recs).clean {} (sorted.map (p.rounded rnd)) with
      | error e => simp [hpb, bind, Except.bind] at hfit
      | ok pb2 =>
        simp only [hpb, bind, Except.bind, pure, Except.pure, Except.ok.injEq] at hfit
        have hst := computePrebins_strict rfl hk hsorted hpb
        refine hst.sublist ?_
        rw [← hfit]
        simp only [fitOptimizer]
        split_ifs
        · exact List.Sublist.refl _
        · contradiction
        · exact select_sublist _ _

/-- The limits of `C102_limits` as a statement about the table. -/
theorem within_of_fitParams {prebin : List (Rec α) → List α} (hull : List ℚ → Option ℚ) (stale : Bool) (pv : ℕ → ℕ → ℕ → ℕ → ℝ)
    (hr : Respects (p.cfg hull stale pv recs.length) solver) (h : fitParams p sc so prebin solver recs = .ok f) (hne : f.splits ≠ []) :
    TableWithin p recs.length (f.splits.length + 1) f.nonevent f.event := by
  obtain ⟨a, b, c⟩ := C102_limits p hull stale pv sc so prebin solver recs f hr h hne
  have c' := fun k (hk : k < f.splits.length + 1) => c k (by omega) _ _ rfl rfl
  refine ⟨fun m hm => by push_cast; exact a m hm, fun m hm => by push_cast; exact b m hm, fun k hk => (c' k hk).1, fun k hk => (c' k hk).2.1,
    fun k hk => (c' k hk).2.2.1, fun k hk => (c' k hk).2.2.2.1, fun k hk => (c' k hk).2.2.2.2.1, fun k hk => (c' k hk).2.2.2.2.2.1,
    fun k hk => (c' k hk).2.2.2.2.2.2⟩

theorem respects_demote {hull : List ℚ → Option ℚ} {stale : Bool} {pv : ℕ → ℕ → ℕ → ℕ → ℝ} {n : ℕ} {fixed : Option FlagArray}
    (h : Respects (p.cfgFixed hull stale pv n fixed) solver) : Respects (p.cfg hull stale pv n) (fun nev ev => (solver nev ev).demote) :=
  h.imp (fun ⟨reg, h⟩ => ⟨reg, respectsCP_demote h⟩) fun ⟨reg, h⟩ => ⟨reg, respectsMIP_demote h⟩

/-- C117: each limit given to the constructor holds for the bins found among user splits, flagged or not. -/
theorem C117_limits (hull : List ℚ → Option ℚ) (stale : Bool) (pv : ℕ → ℕ → ℕ → ℕ → ℝ)
    (h : fitUserParams p sc so rnd solver u recs = .ok (u', f)) (hr : Respects (p.cfgFixed hull stale pv recs.length u'.fixed) solver) (hne : f.splits ≠ []) :
    TableWithin p recs.length (f.splits.length + 1) f.nonevent f.event := by
  obtain ⟨sorted, s, -, -, h3⟩ := user_demote h
  exact within_of_fitParams (f := { f with status := s }) hull stale pv (respects_demote hr) h3 hne

/-- C117: `monotonic_trend` "ascending", "descending", "auto_asc_desc" for user splits, `solver="mip"`. -/
theorem C117_trend_mip (hull : List ℚ → Option ℚ) (stale : Bool) (pv : ℕ → ℕ → ℕ → ℕ → ℝ) (reg : ℝ)
    (h : fitUserParams p sc so rnd solver u recs = .ok (u', f)) (hr : RespectsMIP (p.cfgFixed hull stale pv recs.length u'.fixed) reg solver) :
    (p.trend = .ascending → ∀ k k', k < k' → k' ≤ f.splits.length → rateOfRow f.nonevent f.event k ≤ rateOfRow f.nonevent f.event k') ∧
    (p.trend = .descending → ∀ k k', k < k' → k' ≤ f.splits.length → rateOfRow f.nonevent f.event k' ≤ rateOfRow f.nonevent f.event k) ∧
    (p.trend = .autoAscDesc →
      (∀ k k', k < k' → k' ≤ f.splits.length → rateOfRow f.nonevent f.event k ≤ rateOfRow f.nonevent f.event k') ∨
      (∀ k k', k < k' → k' ≤ f.splits.length → rateOfRow f.nonevent f.event k' ≤ rateOfRow f.nonevent f.event k)) := by
  obtain ⟨sorted, s, -, -, h3⟩ := user_demote h
  exact C102_trend_mip p hull stale pv sc so _ _ recs { f with status := s } reg (respectsMIP_demote hr) h3

/-- C117: the same with `solver="cp"`, up to 1e-6. -/
theorem C117_trend_cp (hull : List ℚ → Option ℚ) (stale : Bool) (pv : ℕ → ℕ → ℕ → ℕ → ℝ) (reg : ℤ)
    (h : fitUserParams p sc so rnd solver u recs = .ok (u', f)) (hr : RespectsCP (p.cfgFixed hull stale pv recs.length u'.fixed) reg solver) :
    (p.trend = .ascending → ∀ k k', k < k' → k' ≤ f.splits.length → rateOfRow f.nonevent f.event k < rateOfRow f.nonevent f.event k' + 1 / 1000000) ∧
    (p.trend = .descending → ∀ k k', k < k' → k' ≤ f.splits.length → rateOfRow f.nonevent f.event k' < rateOfRow f.nonevent f.event k + 1 / 1000000) ∧
    (p.trend = .autoAscDesc →
      (∀ k k', k < k' → k' ≤ f.splits.length → rateOfRow f.nonevent f.event k < rateOfRow f.nonevent f.event k' + 1 / 1000000) ∨
      (∀ k k', k < k' → k' ≤ f.splits.length → rateOfRow f.nonevent f.event k' < rateOfRow f.nonevent f.event k + 1 / 1000000)) := by
  obtain ⟨sorted, s, -, -, h3⟩ := user_demote h
  exact C102_trend_cp p hull stale pv sc so _ _ recs { f with status := s } reg (respectsCP_demote hr) h3

/-- C117: `min_event_rate_diff` for user splits (`solver="mip"`). -/
theorem C117_min_diff_mip (hull : List ℚ → Option ℚ) (stale : Bool) (pv : ℕ → ℕ → ℕ → ℕ → ℝ) (reg : ℝ)
    (h : fitUserParams p sc so rnd solver u recs = .ok (u', f)) (hr : RespectsMIP (p.cfgFixed hull stale pv recs.length u'.fixed) reg solver)
    (v : ℚ) (hv : p.minRateDiff = .num v) (k : ℕ) (hk : k + 1 ≤ f.splits.length) :
    v ≤ |rateOfRow f.nonevent f.event k - rateOfRow f.nonevent f.event (k + 1)| := by
  obtain ⟨sorted, s, -, -, h3⟩ := user_demote h
  exact C102_min_diff_mip p hull stale pv sc so _ _ recs { f with status := s } reg (respectsMIP_demote hr) h3 v hv k hk

/-- C117: the same with `solver="cp"`, up to 2e-6. -/
theorem C117_min_diff_cp (hull : List ℚ → Option ℚ) (stale : Bool) (pv : ℕ → ℕ → ℕ → ℕ → ℝ) (reg : ℤ)
    (h : fitUserParams p sc so rnd solver u recs = .ok (u', f)) (hr : RespectsCP (p.cfgFixed hull stale pv recs.length u'.fixed) reg solver)
    (v : ℚ) (hv : p.minRateDiff = .num v) (k : ℕ) (hk : k + 1 ≤ f.splits.length) :
    v - 2 / 1000000 < |rateOfRow f.nonevent f.event k - rateOfRow f.nonevent f.event (k + 1)| := by
  obtain ⟨sorted, s, -, -, h3⟩ := user_demote h
  exact C102_min_diff_cp p hull stale pv sc so _ _ recs { f with status := s } reg (respectsCP_demote hr) h3 v hv k hk

/-- C117: `max_pvalue` for user splits. -/
theorem C117_pvalues (hull : List ℚ → Option ℚ) (stale : Bool) (pv : ℕ → ℕ → ℕ → ℕ → ℝ)
    (h : fitUserParams p sc so rnd solver u recs = .ok (u', f)) (hr : Respects (p.cfgFixed hull stale pv recs.length u'.fixed) solver)
    (v : ℚ) (hv : p.maxPvalue = some (.num v)) (k k' : ℕ) (hkk : k < k') (hk' : k' ≤ f.splits.length) (hpol : p.policy = .consecutive → k' = k + 1) :
    pv (f.event.getD k 0) (f.nonevent.getD k 0) (f.event.getD k' 0) (f.nonevent.getD k' 0) ≤ (v : ℝ) := by
  obtain ⟨sorted, s, -, -, h3⟩ := user_demote h
  exact C102_pvalues p hull stale pv sc so _ _ recs { f with status := s } (respects_demote hr) h3 v hv k k' hkk hk' hpol

/-- Splits flagged before the refinement are in the result, if the solver gets the flags left by the refinement and finds a solution. -/
theorem fixed_in_result {cfg : PrebinCfg} {c : SolverCfg} {st1 : PrebinState α} {splits : List α} {fx1 : List Bool} {pb : Prebins α}
    (hf1 : st1.fixed = some fx1) (hl : fx1.length = splits.length)
    (hpb : computePrebins { cfg with catUser := false } (splitData sc so recs).clean st1 splits = .ok pb)
    (hfit : fitNumerical cfg sc so (fun _ => splits) solver recs = .ok f) (hsolver : Respects c solver)
    (hopt : ∀ nev ev, (c.opts nev ev).fixed = pb.st.fixed.map fun l i => l.getD i false) (hs : f.Solved) {s : α} (hmem : (s, true) ∈ splits.zip fx1) :
    s ∈ f.splits := by
  obtain ⟨st2, h2'⟩ := computePrebins_any_state (st0 := {}) rfl hpb
  unfold fitNumerical fitFrom fitCore at hfit
  simp only [h2', bind, Except.bind, pure, Except.pure, Except.ok.injEq] at hfit
  have hf := hfit
  obtain ⟨fx', g1, g2, g3⟩ := computePrebins_fixed hf1 hl hpb
  have hin := g3 s hmem
  obtain ⟨i, hi, hie⟩ := List.mem_iff_getElem.1 hin
  have hi1 : i < pb.splits.length := by simp at hi; omega
  have hi2 : i < fx'.length := by simp at hi; omega
  rw [List.getElem_zip, Prod.mk.injEq] at hie
  obtain ⟨-, hcase⟩ := computePrebins_spec _ _ _ _ _ hpb
  rcases hcase with ⟨h1, -⟩ | ⟨h1, h2, h3, -⟩
  · rw [h1] at hi1; simp at hi1
  have hl1 : pb.nonevent.length = pb.splits.length + 1 := by
    rw [h2, length_prebinCounts]; simp [prebinNumber]
  have hl2 : pb.event.length = pb.splits.length + 1 := by
    rw [h3, length_prebinCounts]; simp [prebinNumber]
  have hn2 : ¬ pb.nonevent.length ≤ 1 := by omega
  have hfs : f.splits = select pb.splits (solve pb.nonevent.length (solver pb.nonevent pb.event)).2.dropLast ∧
      f.status = (solve pb.nonevent.length (solver pb.nonevent pb.event)).1 := by
    rw [← hf]; simp [fitOptimizer, hn2]
  have hw : (c.input pb.nonevent pb.event).Wf := ⟨by show pb.event.length = pb.nonevent.length; omega,
    by show 0 < pb.nonevent.length; omega⟩
  have hs' : OptBinning.Solved (solve (c.input pb.nonevent pb.event).n (solver pb.nonevent pb.event)) := by
    unfold OptBinning.Solved
    show (solve pb.nonevent.length _).1 = _ ∨ (solve pb.nonevent.length _).1 = _
    rw [← hfs.2]; exact hs
  have hfixed : solOf (solve pb.nonevent.length (solver pb.nonevent pb.event)).2 i = true := by
    have hgo : (c.opts pb.nonevent pb.event).fixed = some fun i => fx'.getD i false := by
      rw [hopt, g1]; rfl
    have hfi : (fun i => fx'.getD i false) i = true := by
      simp only [List.getD_eq_getElem _ _ hi2, hie.2]
    have hlt : i + 1 < (c.input pb.nonevent pb.event).n := by show i + 1 < pb.nonevent.length; omega
    rcases hsolver with ⟨reg, hr⟩ | ⟨reg, hr⟩
    · exact (cp_master hw (hr pb.nonevent pb.event) hs').1.fixed _ hgo i hlt hfi
    · exact (mip_master hw (hr pb.nonevent pb.event) hs').1.fixed _ hgo i hlt hfi
  have hsl := solve_length pb.nonevent.length (solver pb.nonevent pb.event)
  rw [hfs.1, ← hie.1]
  refine mem_select hi1 (by simp [hsl]; omega) ?_
  rw [List.getElem_dropLast]
  unfold solOf at hfixed
  rwa [List.getD_eq_getElem _ _ (by omega)] at hfixed

/-- C117: a split flagged as fixed is (rounded if asked for) a split of the result, if the solver found a solution. -/
theorem C117_fixed (hull : List ℚ → Option ℚ) (stale : Bool) (pv : ℕ → ℕ → ℕ → ℕ → ℝ)
    (h : fitUserParams p sc so rnd solver u recs = .ok (u', f)) (hr : Respects (p.cfgFixed hull stale pv recs.length u'.fixed) solver) (hs : f.Solved)
    (s : α) (hf : IsFixed u s) : asCut p rnd s ∈ f.splits := by
  obtain ⟨sorted, pb, st1, h1, h2, h3, h4, h5, h6, h7, -⟩ := user_facts h
  obtain ⟨fx, hfx, hmem⟩ := hf
  obtain ⟨fx1, k1, k2, k3⟩ := h7 fx hfx
  rw [← congrFun (rounded_asCut p rnd) s]
  refine fixed_in_result (cfg := { keepPure := p.divergence.keepsPure }) k1 (by simpa using k2) h5 (fitParams_fit h4) hr ?_ hs ?_
  · intro nev ev
    show u'.fixed.map _ = _
    rw [h6, Option.map_map]
    rfl
  · rw [List.zip_map_left]
    exact List.mem_map.2 ⟨(s, true), (k3 _).2 hmem, rfl⟩

/-- C117: without flags the object keeps its user splits, so a second fit is a fit with the same user splits. -/
theorem C117_unflagged_kept (h : fitUserParams p sc so rnd solver u recs = .ok (u', f)) (hn : u.fixed = none) : u' = u := by
  obtain ⟨sorted, pb, st1, -, -, -, -, h4, h5, -, h6⟩ := user_facts h
  obtain ⟨a, b⟩ := computePrebins_unflagged (by rw [h6 hn]) h4
  rw [h5, a, b, h6 hn]
  obtain ⟨us, fx⟩ := u
  simp only at hn
  subst hn
  rfl

/-- C117, finding: after a fit with flags every further fit of the object is refused, whatever the data: the flags are then a numpy array, whose elements are not
Python bools. -/
theorem C117_second_fit_refused (h : fitUserParams p sc so rnd solver u recs = .ok (u', f)) (hf : u.fixed ≠ none) (p2 : Params) (sc2 : SpecialCodes α) (so2 : SplitOpts α) (rnd2 : ℤ → α → α)
    (solver2 : Solver) (recs2 : List (Rec α)) : ∃ e, fitUserParams p2 sc2 so2 rnd2 solver2 u' recs2 = .error e := by
  obtain ⟨sorted, pb, st1, -, -, -, -, h4, h5, h6, -⟩ := user_facts h
  obtain ⟨fx, hfx⟩ := Option.ne_none_iff_exists'.1 hf
  obtain ⟨fx1, k1, k2, -⟩ := h6 fx hfx
  obtain ⟨fx', k3, -⟩ := computePrebins_fixed k1 (by simpa using k2) h4
  have hu : u'.fixed = some ⟨fx', true⟩ := by rw [h5, k3]; rfl
  cases hres : fitUserParams p2 sc2 so2 rnd2 solver2 u' recs2 with
  | error e => exact ⟨e, rfl⟩
  | ok r =>
    obtain ⟨-, -, -, g⟩ := C117_accepted (u' := r.1) (f := r.2) hres
    exact absurd (g _ hu).2 (by simp)

theorem mem_select_mask {ps : List α} {m : List Bool} (hn : ps.Nodup) (hl : m.length = ps.length) {i : ℕ} (hi : i < ps.length)
    (h : ps[i] ∈ select ps m) : m[i]'(by omega) = true := by
  induction ps generalizing m i with
  | nil => simp at hi
  | cons a l ih =>
    cases m with
    | nil => simp at hl
    | cons b m =>
      have hsub : (select l m).Sublist l := select_sublist _ _
      have hna : a ∉ l := (List.nodup_cons.1 hn).1
      cases i with
      | zero =>
        cases b with
        | true => rfl
        | false =>
          exfalso
          have : a ∈ select l m := by simpa [select] using h
          exact hna (hsub.subset this)
      | succ i =>
        have hi' : i < l.length := by simpa using hi
        have h' : l[i] ∈ select l m := by
          cases b with
          | true =>
            have : l[i] = a ∨ l[i] ∈ select l m := by simpa [select] using h
            rcases this with h1 | h1
            · exact absurd (h1 ▸ List.getElem_mem hi') hna
            · exact h1
          | false => simpa [select] using h
        simpa using ih (List.nodup_cons.1 hn).2 (by simpa using hl) hi' h'

/-- The flags left after the refinement belong to the remaining splits. -/
theorem computePrebins_zip {cfg : PrebinCfg} {recs : List (Rec α)} {splits : List α} {st : PrebinState α} {pb : Prebins α} {fx : List Bool}
    (hfx : st.fixed = some fx) (hl : fx.length = splits.length) (h : computePrebins cfg recs st splits = .ok pb) :
    ∃ fx', pb.st.fixed = some fx' ∧ fx'.length = pb.splits.length ∧ (pb.splits.zip fx').Sublist (splits.zip fx) := by
  induction hn : splits.length using Nat.strong_induction_on generalizing splits st fx with
  | _ n ih =>
    rw [computePrebins] at h
    simp only at h
    split_ifs at h with h0 h1 h2
    · cases h; exact ⟨fx, hfx, hl, List.Sublist.refl _⟩
    · cases h; exact ⟨fx, hfx, hl, List.Sublist.refl _⟩
    · have hm := maskSplits_any (c := cfg.catUser) (n := splits.length) (by omega)
        (by simp [pureMask, length_prebinCounts, prebinNumber]) h1
      have hlt := length_select_lt hm.1 hm.2
      generalize maskSplits cfg.catUser (pureMask
          (prebinCounts cfg.catUser (prebinNumber cfg.catUser splits) splits recs false)
          (prebinCounts cfg.catUser (prebinNumber cfg.catUser splits) splits recs true)) = mask at hm hlt h
      simp only [hfx] at h
      split_ifs at h with h3
      have hzip : ∀ (l : List α) (f : List Bool) (m : List Bool), f.length = l.length →
          (select l m).zip (select f m) = select (l.zip f) m := by
        intro l
        induction l with
        | nil => intro f m hf; rw [List.length_nil, List.length_eq_zero_iff] at hf; subst hf; simp [select]
        | cons a l ih =>
          intro f m hf
          cases f with
          | nil => simp at hf
          | cons b f =>
            cases m with
            | nil => simp [select]
            | cons c m =>
              have := ih f m (by simpa using hf)
              unfold select at this ⊢
              cases c <;> simp [this]
      obtain ⟨fx', h5, h6, h7⟩ := ih _ (hn ▸ hlt) (st := { st with nRefinements := st.nRefinements + 1, fixed := some (select fx (mask.map (!·))), userSplits := select st.userSplits (mask.map (!·)) })
        (fx := select fx (mask.map (!·))) rfl
        (by rw [length_select _ _ (by simp [hm.1, hl]), length_select _ _ (by simp [hm.1])]) h rfl
      refine ⟨fx', h5, h6, h7.trans ?_⟩
      rw [hzip _ _ _ hl]
      exact select_sublist _ _
    · cases h; exact ⟨fx, hfx, hl, List.Sublist.refl _⟩

/-- A selection of the remaining splits which contains the fixed splits selects every split flagged for the solver. -/
theorem fixed_selected {cfg : PrebinCfg} {clean : List (Rec α)} {sorted : List α} {st1 : PrebinState α} {pb : Prebins α} {fx1 : List Bool} {m : List Bool}
    (hn : sorted.Nodup) (h1 : st1.fixed = some fx1) (h2 : fx1.length = sorted.length) (h3 : computePrebins cfg clean st1 sorted = .ok pb)
    (hl : m.length = pb.splits.length) (hm : ∀ s, (s, true) ∈ sorted.zip fx1 → s ∈ select pb.splits m) :
    ∀ fx', pb.st.fixed = some fx' → ∀ i < pb.splits.length, fx'.getD i false = true → m.getD i false = true := by
  intro fx' hfx' i hi hfi
  obtain ⟨g, g1, g2, g3⟩ := computePrebins_zip h1 h2 h3
  rw [hfx'] at g1
  obtain rfl := Option.some.inj g1
  obtain ⟨hsub, -⟩ := computePrebins_spec _ _ _ _ _ h3
  have hi2 : i < fx'.length := by omega
  rw [List.getD_eq_getElem _ _ hi2] at hfi
  rw [List.getD_eq_getElem _ _ (by omega)]
  refine mem_select_mask (hn.sublist hsub) hl hi (hm _ (g3.subset ?_))
  refine List.mem_iff_getElem.2 ⟨i, by simp; omega, ?_⟩
  rw [List.getElem_zip, hfi]

/-- C117, `solver="mip"`: if `fit` with user splits, flagged or not, reports OPTIMAL, the table at the returned splits has the largest divergence among the tables at any
selection of the user splits which contains the fixed ones and meets the arguments — if every interval of the user splits holds both classes; otherwise
among the selections of the splits `ps` left by the refinement. -/
theorem C117_optimal_mip (hull : List ℚ → Option ℚ) (stale : Bool) (pv : ℕ → ℕ → ℕ → ℕ → ℝ) (reg : ℝ)
    (hw : WholeWeights recs) (hd : p.divergence = .iv ∨ p.divergence = .js) (hg : p.gamma = .num 0) (hp : AnyLimits p)
    (hmono : ∀ d, Monotone (rnd d)) (hnd : (u.splits.map (asCut p rnd)).Nodup)
    (h : fitUserParams p sc so rnd solver u recs = .ok (u', f)) (hr : RespectsMIP (p.cfgFixed hull stale pv recs.length u'.fixed) reg solver)
    (hs : f.status = "OPTIMAL") :
    ∃ ps : List α, f.splits.Sublist ps ∧ (∀ s ∈ ps, ∃ t ∈ u.splits, s = asCut p rnd t) ∧
      (CutsMixed (splitData sc so recs).clean ((u.splits.insertionSort (· ≤ ·)).map (asCut p rnd)) →
        ps = (u.splits.insertionSort (· ≤ ·)).map (asCut p rnd)) ∧
      ∀ cs : List α, cs.Sublist ps → (∀ s, IsFixed u s → asCut p rnd s ∈ cs) → CutsMeet p pv recs.length 0 (splitData sc so recs).clean cs →
        cutDivergence p.divergence.fn (splitData sc so recs).clean cs ≤ cutDivergence p.divergence.fn (splitData sc so recs).clean f.splits := by
  obtain ⟨sorted, pb, st1, k1, k2, k3, k4, k5, k6, k7, k8⟩ := user_facts h
  have hsorted : u.splits.insertionSort (· ≤ ·) = sorted :=
    List.Perm.eq_of_pairwise (fun a b _ _ h1 h2 => le_antisymm h1 h2) (List.pairwise_insertionSort _ _) k2
      ((List.perm_insertionSort _ _).trans k1.symm)
  have hk : p.divergence.keepsPure = false := by rcases hd with hd | hd <;> rw [hd] <;> rfl
  obtain ⟨a1, a2, q, a3, a4⟩ := accepted_num (fitParams_accepted k4)
  obtain ⟨ps, ⟨pb0, hpb0, hps⟩, g1, g2, g3, -, g4⟩ := fit_cuts_masks hw (fun nev ev hn => Respects.last (Or.inr ⟨reg, hr⟩) nev ev hn) (fun _ => List.pairwise_map.2 (k2.imp fun hab => rounded_mono p hmono hab)) hk (fitParams_fit k4)
  obtain ⟨st2, e2⟩ := computePrebins_any_state (st0 := {}) rfl k5
  have hpseq : pb.splits = ps := by
    rw [← hps]
    have := hpb0.symm.trans e2
    cases this
    rfl
  rw [hsorted, ← rounded_asCut]
  have hnd' : (sorted.map (p.rounded rnd)).Nodup := by rw [rounded_asCut]; exact ((k1.map _).nodup_iff).2 hnd
  refine ⟨ps, g1, fun s hs => by obtain ⟨t, ht, rfl⟩ := List.mem_map.1 (g2.subset hs); exact ⟨t, k1.mem_iff.1 ht, rfl⟩, g3, fun cs hcs hfix hm => ?_⟩
  rcases g4 with rfl | ⟨nev, ev, l1, l2, hpos, hst, ⟨idx, hcf⟩, hall⟩
  · rw [List.sublist_nil.1 hcs, List.sublist_nil.1 g1]
  · obtain ⟨m, idx', hml, hmc, hc⟩ := hall cs hcs
    have hopt := options_none (n := recs.length) (stale := stale) hk (resolve_plain (Or.inl hp) hull nev ev) pv
    have hwf : ((p.cfgFixed hull stale pv recs.length u'.fixed).input nev ev).Wf := ⟨l1, by show 0 < nev.length; omega⟩
    have hv := hr nev ev
    have hc' : CutBins (splitData sc so recs).clean cs ((p.cfgFixed hull stale pv recs.length u'.fixed).input nev ev).n (solOf (m ++ [true]))
      ((p.cfgFixed hull stale pv recs.length u'.fixed).input nev ev).ne ((p.cfgFixed hull stale pv recs.length u'.fixed).input nev ev).ev idx' := hc
    have hadm := hc'.admissible (o := (p.cfg hull stale pv recs.length).opts nev ev) a1 hm
      (by rw [hopt]; exact ⟨rfl, rfl, rfl, rfl, rfl, rfl, rfl, rfl, rfl⟩) (by rw [hopt]; exact trend_cast _ (hc'.trend hm))
    have hflags : ∀ g, ((p.cfgFixed hull stale pv recs.length u'.fixed).opts nev ev).fixed = some g → ∀ i, i + 1 < nev.length → g i = true →
        solOf (m ++ [true]) i = true := by
      intro g hg' i hi hgi
      have hu' : u'.fixed = pb.st.fixed.map fun l => ⟨l, true⟩ := by rw [k6]
      cases hpf : pb.st.fixed with
      | none => rw [hu', hpf] at hg'; cases hg'
      | some fx' =>
        rw [hu', hpf] at hg'
        have hge : g = fun i => fx'.getD i false := (Option.some.inj hg').symm
        rw [hge] at hgi
        cases huf : u.fixed with
        | none =>
          have := (computePrebins_unflagged (by rw [k8 huf]) k5).1
          rw [hpf] at this; cases this
        | some fx =>
          obtain ⟨fx1, q1, q2, q3⟩ := k7 fx huf
          have hsel := fixed_selected hnd' q1 (by simpa using q2) k5 (m := m) (by rw [hpseq]; exact hml)
            (fun s hs => by
              rw [List.zip_map_left] at hs
              obtain ⟨⟨s0, b0⟩, hs0, hs1⟩ := List.mem_map.1 hs
              obtain ⟨rfl, rfl⟩ := Prod.mk.inj hs1
              rw [hpseq, hmc]; exact hfix s0 ⟨fx, huf, (q3 _).1 hs0⟩) fx' hpf i (by rw [hpseq]; omega) hgi
          unfold solOf
          rw [List.getD_append _ _ _ _ (by omega)]
          exact hsel
    have hadm' : Admissible ((p.cfgFixed hull stale pv recs.length u'.fixed).opts nev ev) ((p.cfgFixed hull stale pv recs.length u'.fixed).input nev ev).n (solOf (m ++ [true]))
        ((p.cfgFixed hull stale pv recs.length u'.fixed).input nev ev).ne ((p.cfgFixed hull stale pv recs.length u'.fixed).input nev ev).ev
        (fun s e => (eventRate ((p.cfgFixed hull stale pv recs.length u'.fixed).input nev ev).ne ((p.cfgFixed hull stale pv recs.length u'.fixed).input nev ev).ev s e : ℝ)) :=
      ⟨hadm.binning, hadm.minBins, hadm.maxBins, hadm.minSize, hadm.maxSize, hadm.minNonevent, hadm.maxNonevent, hadm.minEvent, hadm.maxEvent, hadm.trend, hflags⟩
    have key := C18_optimal_mip_partial hwf (anyLimits_noShortcuts hp a3 (by show ((p.cfg hull stale pv recs.length).opts nev ev).trend = _; rw [hopt]) rfl)
      (by show ((p.cfg hull stale pv recs.length).opts nev ev).gamma = _; rw [hopt]; simp [hg]) hv (by rw [← hst.symm.trans hs]; rfl)
      _ hadm'
      (hc'.tests a2 hm (fun k => ⟨by unfold BinaryInput.ne; positivity, by unfold BinaryInput.ev; positivity⟩) rfl rfl)
      (hc'.apart ⟨q, a3⟩ hm rfl)
    rw [hc'.divergence] at key
    refine le_trans key (le_of_eq ?_)
    exact hcf.divergence _

/-- C117, `solver="cp"`: the same up to the integer rounding of the solver, at most 10⁻⁶ per bin of the compared table (and 10⁻⁶ in the minimum rate
difference). -/
theorem C117_optimal_cp (hull : List ℚ → Option ℚ) (stale : Bool) (pv : ℕ → ℕ → ℕ → ℕ → ℝ) (reg : ℤ)
    (hw : WholeWeights recs) (hd : p.divergence = .iv ∨ p.divergence = .js) (hg : p.gamma = .num 0) (hp : AnyLimits p)
    (hmono : ∀ d, Monotone (rnd d)) (hnd : (u.splits.map (asCut p rnd)).Nodup)
    (h : fitUserParams p sc so rnd solver u recs = .ok (u', f)) (hr : RespectsCP (p.cfgFixed hull stale pv recs.length u'.fixed) reg solver)
    (hs : f.status = "OPTIMAL") :
    ∃ ps : List α, f.splits.Sublist ps ∧ (∀ s ∈ ps, ∃ t ∈ u.splits, s = asCut p rnd t) ∧
      (CutsMixed (splitData sc so recs).clean ((u.splits.insertionSort (· ≤ ·)).map (asCut p rnd)) →
        ps = (u.splits.insertionSort (· ≤ ·)).map (asCut p rnd)) ∧
      ∀ cs : List α, cs.Sublist ps → (∀ s, IsFixed u s → asCut p rnd s ∈ cs) → CutsMeet p pv recs.length (1 / 1000000) (splitData sc so recs).clean cs →
        cutDivergence p.divergence.fn (splitData sc so recs).clean cs ≤ cutDivergence p.divergence.fn (splitData sc so recs).clean f.splits + ((cs.length : ℝ) + 1) / 1000000 := by
  obtain ⟨sorted, pb, st1, k1, k2, k3, k4, k5, k6, k7, k8⟩ := user_facts h
  have hsorted : u.splits.insertionSort (· ≤ ·) = sorted :=
    List.Perm.eq_of_pairwise (fun a b _ _ h1 h2 => le_antisymm h1 h2) (List.pairwise_insertionSort _ _) k2
      ((List.perm_insertionSort _ _).trans k1.symm)
  have hk : p.divergence.keepsPure = false := by rcases hd with hd | hd <;> rw [hd] <;> rfl
  obtain ⟨a1, a2, q, a3, a4⟩ := accepted_num (fitParams_accepted k4)
  obtain ⟨ps, ⟨pb0, hpb0, hps⟩, g1, g2, g3, -, g4⟩ := fit_cuts_masks hw (fun nev ev hn => Respects.last (Or.inl ⟨reg, hr⟩) nev ev hn) (fun _ => List.pairwise_map.2 (k2.imp fun hab => rounded_mono p hmono hab)) hk (fitParams_fit k4)
  obtain ⟨st2, e2⟩ := computePrebins_any_state (st0 := {}) rfl k5
  have hpseq : pb.splits = ps := by
    rw [← hps]
    have := hpb0.symm.trans e2
    cases this
    rfl
  rw [hsorted, ← rounded_asCut]
  have hnd' : (sorted.map (p.rounded rnd)).Nodup := by rw [rounded_asCut]; exact ((k1.map _).nodup_iff).2 hnd
  refine ⟨ps, g1, fun s hs => by obtain ⟨t, ht, rfl⟩ := List.mem_map.1 (g2.subset hs); exact ⟨t, k1.mem_iff.1 ht, rfl⟩, g3, fun cs hcs hfix hm => ?_⟩
  rcases g4 with rfl | ⟨nev, ev, l1, l2, hpos, hst, ⟨idx, hcf⟩, hall⟩
  · rw [List.sublist_nil.1 hcs, List.sublist_nil.1 g1]; exact le_add_of_nonneg_right (by positivity)
  · obtain ⟨m, idx', hml, hmc, hc⟩ := hall cs hcs
    have hopt := options_none (n := recs.length) (stale := stale) hk (resolve_plain (Or.inl hp) hull nev ev) pv
    have hwf : ((p.cfgFixed hull stale pv recs.length u'.fixed).input nev ev).Wf := ⟨l1, by show 0 < nev.length; omega⟩
    have hv := hr nev ev
    have hc' : CutBins (splitData sc so recs).clean cs ((p.cfgFixed hull stale pv recs.length u'.fixed).input nev ev).n (solOf (m ++ [true]))
      ((p.cfgFixed hull stale pv recs.length u'.fixed).input nev ev).ne ((p.cfgFixed hull stale pv recs.length u'.fixed).input nev ev).ev idx' := hc
    have hadm := hc'.admissible (o := (p.cfg hull stale pv recs.length).opts nev ev) a1 hm
      (by rw [hopt]; exact ⟨rfl, rfl, rfl, rfl, rfl, rfl, rfl, rfl, rfl⟩) (by rw [hopt]; exact trend_floor _ (hc'.trend hm))
    have hflags : ∀ g, ((p.cfgFixed hull stale pv recs.length u'.fixed).opts nev ev).fixed = some g → ∀ i, i + 1 < nev.length → g i = true →
        solOf (m ++ [true]) i = true := by
      intro g hg' i hi hgi
      have hu' : u'.fixed = pb.st.fixed.map fun l => ⟨l, true⟩ := by rw [k6]
      cases hpf : pb.st.fixed with
      | none => rw [hu', hpf] at hg'; cases hg'
      | some fx' =>
        rw [hu', hpf] at hg'
        have hge : g = fun i => fx'.getD i false := (Option.some.inj hg').symm
        rw [hge] at hgi
        cases huf : u.fixed with
        | none =>
          have := (computePrebins_unflagged (by rw [k8 huf]) k5).1
          rw [hpf] at this; cases this
        | some fx =>
          obtain ⟨fx1, q1, q2, q3⟩ := k7 fx huf
          have hsel := fixed_selected hnd' q1 (by simpa using q2) k5 (m := m) (by rw [hpseq]; exact hml)
            (fun s hs => by
              rw [List.zip_map_left] at hs
              obtain ⟨⟨s0, b0⟩, hs0, hs1⟩ := List.mem_map.1 hs
              obtain ⟨rfl, rfl⟩ := Prod.mk.inj hs1
              rw [hpseq, hmc]; exact hfix s0 ⟨fx, huf, (q3 _).1 hs0⟩) fx' hpf i (by rw [hpseq]; omega) hgi
          unfold solOf
          rw [List.getD_append _ _ _ _ (by omega)]
          exact hsel
    have hmix : ∀ k < ((p.cfgFixed hull stale pv recs.length u'.fixed).input nev ev).n, 0 < ((p.cfgFixed hull stale pv recs.length u'.fixed).input nev ev).ne k ∧
        0 < ((p.cfgFixed hull stale pv recs.length u'.fixed).input nev ev).ev k := fun k hk => by
      have := hpos k hk
      exact ⟨Int.natCast_pos.2 this.1, Int.natCast_pos.2 this.2⟩
    have hnn : ∀ sol' s e, IsBin ((p.cfgFixed hull stale pv recs.length u'.fixed).input nev ev).n sol' s e → 0 ≤ binDivergence ((p.cfgFixed hull stale pv recs.length u'.fixed).input nev ev).div
        ((p.cfgFixed hull stale pv recs.length u'.fixed).input nev ev).n ((p.cfgFixed hull stale pv recs.length u'.fixed).input nev ev).ne ((p.cfgFixed hull stale pv recs.length u'.fixed).input nev ev).ev s e :=
      fun sol' s e hb => binDivergence_nonneg (fun k hk => (hmix k hk).1) (fun k hk => (hmix k hk).2) p.divergence hb
    have key := C18_optimal_cp_partial hwf (anyLimits_noShortcuts hp a3 (by show ((p.cfg hull stale pv recs.length).opts nev ev).trend = _; rw [hopt]) rfl)
      (by show ((p.cfg hull stale pv recs.length).opts nev ev).gamma = _; rw [hopt]; simp [hg]) hv (by rw [← hst.symm.trans hs]; rfl)
      (solOf (m ++ [true]))
      ⟨hadm.binning, hadm.minBins, hadm.maxBins, hadm.minSize, hadm.maxSize, hadm.minNonevent, hadm.maxNonevent, hadm.minEvent, hadm.maxEvent, hadm.trend, hflags⟩
      (hc'.tests a2 hm (fun k => ⟨by unfold BinaryInput.ne; positivity, by unfold BinaryInput.ev; positivity⟩) rfl rfl)
      (hc'.apart6 ⟨q, a3⟩ hm rfl)
    have t1 := (total_trunc (hnn (solOf (m ++ [true])))).2
    have t2 := (total_trunc (hnn (solOf (solve nev.length (solver nev ev)).2))).1
    have key' : ((totalOverBins _ (solOf (m ++ [true])) (fun s e => truncReal (binDivergence ((p.cfgFixed hull stale pv recs.length u'.fixed).input nev ev).div
        ((p.cfgFixed hull stale pv recs.length u'.fixed).input nev ev).n ((p.cfgFixed hull stale pv recs.length u'.fixed).input nev ev).ne ((p.cfgFixed hull stale pv recs.length u'.fixed).input nev ev).ev s e *
          1000000)) : ℤ) : ℝ) ≤ _ := Int.cast_le.2 key
    have t3 := le_trans key' t2
    rw [hc'.divergence, hc'.num] at t1
    have e1 : totalOverBins ((p.cfgFixed hull stale pv recs.length u'.fixed).input nev ev).n (solOf (solve nev.length (solver nev ev)).2)
        (binDivergence ((p.cfgFixed hull stale pv recs.length u'.fixed).input nev ev).div ((p.cfgFixed hull stale pv recs.length u'.fixed).input nev ev).n
          ((p.cfgFixed hull stale pv recs.length u'.fixed).input nev ev).ne ((p.cfgFixed hull stale pv recs.length u'.fixed).input nev ev).ev) =
        cutDivergence p.divergence.fn (splitData sc so recs).clean f.splits := hcf.divergence _
    rw [e1] at t3
    have e2 : ((p.cfgFixed hull stale pv recs.length u'.fixed).input nev ev).div = p.divergence.fn := rfl
    rw [e2] at t1 t3
    push_cast at t1
    linarith

/-! ### concrete fits -/

/-- `OptimalBinning(monotonic_trend=None, user_splits=[1], user_splits_fixed=[True])` on five records: solved to optimality. -/
theorem flaggedFit (hull : List ℚ → Option ℚ) (pv : ℕ → ℕ → ℕ → ℕ → ℝ) :
    ∃ (solver : Solver) (u' : UserSplits ℕ) (f : Fitted ℕ),
      fitUserParams { trend := .none } .none {} (fun _ => id) solver ⟨[1], some ⟨[true], false⟩⟩ fiveRecs = .ok (u', f) ∧
      RespectsMIP (Params.cfgFixed { trend := .none } hull false pv fiveRecs.length u'.fixed) 0 solver ∧ f.status = "OPTIMAL" := by
  set c := Params.cfgFixed { trend := .none } hull false pv fiveRecs.length (some ⟨[true], true⟩) with hc
  have hopt : c.opts [2, 1] [1, 1] = { fixed := some fun i => [true].getD i false } := by
    simp only [hc, Params.cfgFixed, Params.cfg, Params.options, resolveTrend, bind, Except.bind, pure, Except.pure, Option.map_none]
    rfl
  have hacc : ∃ a, acceptsMIP (c.opts [2, 1] [1, 1]) (c.input [2, 1] [1, 1]) a := by
    rw [hopt]
    obtain ⟨a, ha, -⟩ := acceptsMIP.complete (o := { fixed := some fun i => [true].getD i false }) (inp := c.input [2, 1] [1, 1]) (sol := fun _ => true)
      ⟨rfl, show 0 < 2 by decide⟩ ⟨Or.inl (Or.inl rfl), by simp, by simp⟩
      ⟨⟨show 0 < 2 by decide, rfl⟩, by simp [AtLeast], by simp [AtMost], by simp [AtLeast], by simp [AtMost],
        by simp [AtLeast], by simp [AtMost], by simp [AtLeast], by simp [AtMost], trivial, by simp⟩
      (by rintro s e s' e' - - - - ⟨t, ht, -⟩; simp [hc, Params.cfgFixed, Params.cfg, SolverCfg.input] at ht)
      (by rintro s e s' e' - - - - ⟨h, -⟩; simp [hc, Params.cfgFixed, Params.cfg, SolverCfg.input, XQ.value] at h)
    exact ⟨a, ha⟩
  have hbest := bestMIP_optimal c (nev := [2, 1]) (ev := [1, 1]) rfl (by decide) (by rw [hopt]) hacc
  have h1 : prebinCounts false 2 [1] (splitData .none {} fiveRecs).clean false = [2, 1] := by decide +kernel
  have h2 : prebinCounts false 2 [1] (splitData .none {} fiveRecs).clean true = [1, 1] := by decide +kernel
  have h0 : computePrebins { keepPure := false } (splitData .none {} fiveRecs).clean { userSplits := [1], fixed := some [true] } [1] =
      .ok ⟨{ userSplits := [1], fixed := some [true] }, [1], [2, 1], [1, 1]⟩ := by
    rw [computePrebins]
    simp [prebinNumber, h1, h2, pureMask]
  have hso : sortUserSplits { userSplits := [1], fixed := some [true] } =
      .ok (({ userSplits := [1], fixed := some [true] } : PrebinState ℕ), [1]) := rfl
  have hchk : checkParameters { trend := .none } = .ok () := by decide +kernel
  have hk : ({ trend := .none } : Params).divergence.keepsPure = false := rfl
  have key : ∃ f, fitUserParams { trend := .none } .none {} (fun _ => id) (bestMIP c) ⟨[1], some ⟨[true], false⟩⟩ fiveRecs = .ok (⟨[1], some ⟨[true], true⟩⟩, f) ∧
      f.status = (solve 2 (bestMIP c [2, 1] [1, 1])).1 := by
    unfold fitUserParams
    rw [hchk]
    simp only [checkUserSplits, Option.map_some, hk, fitUserRounded_id, fitUser, hso, bind, Except.bind, fitFrom, fitCore, h0, pure, Except.pure, fitOptimizer, rounded_none (p := { trend := .none }) (fun _ => (id : ℕ → ℕ)) rfl]
    exact ⟨_, rfl, rfl⟩
  obtain ⟨f, k1, k2⟩ := key
  exact ⟨bestMIP c, _, f, k1, bestMIP_respects c, by rw [k2]; exact hbest⟩

/-- Non-vacuity of `C117_optimal_mip`, `C117_fixed`, `C117_limits`, `C117_second_fit_refused`: the flagged split is kept, both bins hold both classes, and the table has
the largest divergence. -/
example (hull : List ℚ → Option ℚ) (pv : ℕ → ℕ → ℕ → ℕ → ℝ) :
    ∃ (solver : Solver) (u' : UserSplits ℕ) (f : Fitted ℕ),
      fitUserParams { trend := .none } .none {} (fun _ => id) solver ⟨[1], some ⟨[true], false⟩⟩ fiveRecs = .ok (u', f) ∧ f.splits = [1] ∧
      TableWithin { trend := .none } 5 2 f.nonevent f.event ∧
      ∃ e, fitUserParams { trend := .none } .none {} (fun _ => id) solver u' fiveRecs = .error e := by
  obtain ⟨solver, u', f, h1, h2, h3⟩ := flaggedFit hull pv
  have hr : Respects (Params.cfgFixed { trend := .none } hull false pv fiveRecs.length u'.fixed) solver := Or.inr ⟨0, h2⟩
  have hm := C117_fixed hull false pv h1 hr (Or.inl h3) 1 ⟨_, rfl, by decide⟩
  obtain ⟨-, k2', k1⟩ := C117_splits (fun _ => monotone_id) h1
  have k1 := k1 (Or.inl rfl)
  have k2 : ∀ s ∈ f.splits, s ∈ [1] := fun s hs => by obtain ⟨t, ht, rfl⟩ := k2' s hs; exact ht
  have hs : f.splits = [1] := by
    cases hf : f.splits with
    | nil => rw [hf] at hm; cases hm
    | cons a l =>
      rw [hf] at k1 k2
      have ha : a = 1 := by simpa using k2 a (by simp)
      cases l with
      | nil => rw [ha]
      | cons b l =>
        have hb : b = 1 := by simpa using k2 b (by simp)
        have := List.rel_of_pairwise_cons k1 (a' := b) (by simp)
        omega
  have hl := C117_limits hull false pv h1 hr (by rw [hs]; simp)
  rw [hs] at hl
  exact ⟨solver, u', f, h1, hs, hl, C117_second_fit_refused h1 (by simp) _ _ _ _ _ _⟩

/-- Non-vacuity of `C117_unflagged`: the fit of `fiveFit` with its split given by the user. -/
example (hull : List ℚ → Option ℚ) (pv : ℕ → ℕ → ℕ → ℕ → ℝ) : ∃ (solver : Solver) (f : Fitted ℕ),
    fitUserParams fiveParams .none {} (fun _ => id) solver ⟨[1], none⟩ fiveRecs = .ok (⟨[1], none⟩, f) ∧ f.splits = [1] := by
  obtain ⟨c, -, -, hf⟩ := fiveFit hull pv
  exact ⟨_, _, C117_unflagged [1] rfl (by simp) (by decide) (List.Perm.refl _) (by simp) hf, rfl⟩

/-- C117, finding: flags given as a numpy array (documented as "array-like") are refused, whatever the splits and the data. -/
theorem C117_numpy_flags_refused (p : Params) (sc : SpecialCodes α) (so : SplitOpts α) (rnd : ℤ → α → α) (solver : Solver) (splits : List α) (flags : List Bool) (recs : List (Rec α)) :
    ∃ e, fitUserParams p sc so rnd solver ⟨splits, some ⟨flags, true⟩⟩ recs = .error e := by
  cases hres : fitUserParams p sc so rnd solver ⟨splits, some ⟨flags, true⟩⟩ recs with
  | error e => exact ⟨e, rfl⟩
  | ok r =>
    obtain ⟨-, -, -, g⟩ := C117_accepted (u' := r.1) (f := r.2) hres
    exact absurd (g _ rfl).2 (by simp)

end OptBinning
