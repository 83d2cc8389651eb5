import Verif.Props.CatFixedC
import Verif.Props.CatUserOptC

/-!
# C123: optimality of the merge of groups, with flags
-/
namespace OptBinning
open OptBinning.Spec

variable {κ : Type} [LinearOrder κ] {p : ParamsC} {cutoff : Option XQ} {sc : SpecialCodes κ} {argsort : List (RecC κ) → List (List κ) → List ℕ}
  {solver : SolverC} {u u' : UserSplits (List κ)} {old old' : MissingStats} {recs : List (RecC κ)} {f : CatUserFittedC κ}

/-- If the refinement removes nothing, it leaves the state alone and does not depend on it. -/
theorem computePrebinsC_stay {α : Type*} [LinearOrder α] {c : Bool} {rs : List (RecC α)} {st : PrebinState α} {splits : List α} {pb : PrebinsC α}
    (h : computePrebinsC c rs st splits = .ok pb) (hs : pb.splits = splits) (st0 : PrebinState α) :
    computePrebinsC c rs st0 splits = .ok ⟨st0, splits, pb.cells⟩ := by
  obtain ⟨-, h2, h3, h4⟩ := computePrebinsC_spec _ _ _ _ _ h
  rw [hs] at h2 h3
  rw [computePrebinsC]
  simp only
  rw [dif_neg (fun h0 => h2 (List.length_eq_zero_iff.1 h0)), dif_neg, h3]
  rw [← h3, List.any_eq_true]
  rintro ⟨b, hb, hb'⟩
  obtain ⟨d, hd, rfl⟩ := List.mem_map.1 hb
  exact h4 d hd (by simpa using hb')

theorem rounded_id (p : ParamsC) : p.rounded (fun _ => (id : ℕ → ℕ)) = id := by
  rw [roundedC_asCut]
  funext t
  unfold asCutC
  cases p.splitDigits <;> rfl

/-- A numerical fit without flags which keeps all cuts, done again with the cuts as flagged user splits. -/
theorem fitParamsC_as_user {p : ParamsC} {pre : List (RecC ℕ) → List ℕ} {cuts : List ℕ} {F : List Bool} {solver solver' : SolverC} {nums : List (RecC ℕ)}
    {o : MissingStats} {g : FittedC ℕ} (hpre : pre = fun _ => cuts)
    (hl : F.length = cuts.length) (hsort : cuts.Pairwise (· < ·)) (hne : cuts ≠ []) (hu : UnitWeights nums)
    (hf : CutsFilled (splitDataC .none none nums).clean cuts) (hss : ∀ cells : List CellC, cells.length = cuts.length + 1 → solver' cells = solver cells)
    (h : fitParamsC p .none none pre solver {} nums = .ok (o, g)) :
    ∃ o', fitUserParamsC p .none none (fun _ => id) solver' {} ⟨cuts, some ⟨F, false⟩⟩ nums = .ok (o', ⟨cuts, some ⟨F, true⟩⟩, g) := by
  subst hpre
  have hacc : checkParametersC p = .ok () := by
    unfold fitParamsC at h
    split at h
    · cases h
    · assumption
  have hclean : ∀ r ∈ (splitDataC .none none nums).clean, r.x ≠ none ∧ r.y ≠ none := fun r hr => (cleanC_known hr).2
  have huc : UnitWeights (splitDataC .none none nums).clean := fun r hr => hu r (cleanC_known hr).1
  obtain ⟨special, st', hs, hcore⟩ := fitNumericalC_cases (fitParamsC_fit h)
  obtain ⟨hcne, hcase⟩ := fitCoreC_cases hcore
  rcases hcase with ⟨h1, -⟩ | ⟨pb, -, h2, h3, rfl⟩
  · exact absurd h1 hne
  have hps := computePrebinsC_filled hclean huc (hsort.imp fun h => Nat.le_of_lt h) hf {} h2
  obtain ⟨-, -, hcells, -⟩ := computePrebinsC_spec _ _ _ _ _ h2
  have hlen : pb.cells.length = cuts.length + 1 := by rw [hcells, hps]; simp [prebinCells, prebinNumber]
  have hstay := computePrebinsC_stay h2 hps { userSplits := cuts, fixed := some F }
  have hfit := fitCoreC_eq (solver := solver') (others := none) (special := special)
    (missing := missingRow {} (splitDataC .none none nums).missing) hcne hne hstay
  have hso : sortUserSplits { userSplits := cuts, fixed := some F } = .ok (({ userSplits := cuts, fixed := some F } : PrebinState ℕ), cuts) := by
    unfold sortUserSplits
    have hz : ((cuts.zip F).insertionSort fun a b => a.1 ≤ b.1) = cuts.zip F := by
      apply List.Pairwise.insertionSort_eq
      have : ((cuts.zip F).map Prod.fst).Pairwise (· < ·) := by rw [List.map_fst_zip (by omega)]; exact hsort
      exact (List.pairwise_map.1 this).imp fun h => Nat.le_of_lt h
    have hnd : cuts.Nodup := hsort.imp fun h => Nat.ne_of_lt h
    rw [if_pos hnd]
    simp only [hz]
    rw [List.map_fst_zip (by omega), List.map_snd_zip (by omega)]
  unfold fitUserParamsC
  rw [hacc]
  have hcu : checkUserSplits (⟨cuts, some ⟨F, false⟩⟩ : UserSplits ℕ) = .ok () := by
    rw [checkUserSplits_ok]
    intro fx hfx
    simp only [Option.some.injEq] at hfx
    subst hfx
    exact ⟨hl, by simp⟩
  have hl0 : ¬ cuts.length = 0 := fun h0 => hne (List.length_eq_zero_iff.1 h0)
  simp only at hfit
  refine ⟨⟨(missingRow {} (splitDataC .none none nums).missing).var, (missingRow {} (splitDataC .none none nums).missing).mn,
    (missingRow {} (splitDataC .none none nums).missing).mx⟩, ?_⟩
  simp only [hcu, fitUserRoundedC, Option.map_some, hso, hs, rounded_id, List.map_id, hl0, if_false]
  rw [hfit, hss _ hlen, hps]
  rfl

theorem respectsC_take {p : ParamsC} {hull : List ℚ → Option ℚ} {pv : ℚ → ℝ → ℕ → ℚ → ℝ → ℕ → ℝ} {N n : ℕ} {F : List Bool} {solver : SolverC}
    (hr : RespectsC (p.cfgFixed hull pv N (some ⟨F, true⟩)) solver) :
    RespectsC (p.cfgFixed hull pv N (some ⟨F.take (n - 1), true⟩)) (fun cells => if cells.length = n then solver cells else .other "UNKNOWN") := by
  intro cells
  by_cases hn : cells.length = n
  swap
  · simp only [if_neg hn]
    exact ⟨by decide, by decide⟩
  have hin : (((p.cfgFixed hull pv N (some ⟨F, true⟩)).input cells).n) = n := by rw [← hn]; simp [SolverCfgC.input, ContInput.n]
  have hg : ∀ i, i + 1 < n → (F.take (n - 1)).getD i false = F.getD i false := by
    intro i hi
    rw [List.getD_eq_getElem?_getD, List.getD_eq_getElem?_getD, List.getElem?_take_of_lt (by omega)]
  have hiff : ∀ a, acceptsCont ((p.cfgFixed hull pv N (some ⟨F, true⟩)).opts cells) ((p.cfgFixed hull pv N (some ⟨F, true⟩)).input cells) a ↔
      acceptsCont ((p.cfgFixed hull pv N (some ⟨F.take (n - 1), true⟩)).opts cells) ((p.cfgFixed hull pv N (some ⟨F.take (n - 1), true⟩)).input cells) a := by
    intro a
    constructor
    · rintro ⟨h1, h2, h3, h4, h5, h6, h7, h8, h9, h10⟩
      refine ⟨h1, h2, h3, h4, h5, h6, h7, h8, h9, fun g hgs i hi hgi => h10 _ rfl i hi ?_⟩
      obtain rfl : (fun i => (F.take (n - 1)).getD i false) = g := Option.some.inj hgs
      have hi' : i + 1 < n := by rw [← hin]; exact hi
      simp only at hgi ⊢
      rw [← hg i hi']
      exact hgi
    · rintro ⟨h1, h2, h3, h4, h5, h6, h7, h8, h9, h10⟩
      refine ⟨h1, h2, h3, h4, h5, h6, h7, h8, h9, fun g hgs i hi hgi => h10 _ rfl i hi ?_⟩
      obtain rfl : (fun i => F.getD i false) = g := Option.some.inj hgs
      have hi' : i + 1 < n := by rw [← hin]; exact hi
      simp only at hgi ⊢
      rw [hg i hi']
      exact hgi
  have := hr cells
  simp only [if_pos hn]
  cases e : solver cells with
  | optimal a =>
    rw [e] at this
    exact ⟨(hiff a).1 this.1, fun a' ha' => this.2 a' ((hiff a').2 ha')⟩
  | feasible a =>
    rw [e] at this
    exact (hiff a).1 this
  | other s =>
    rw [e] at this
    exact this

/-- C123: if every group occurs in the training data, the merge of neighbouring groups (by mean) returned with status OPTIMAL is optimal among
those in which every flagged group ends its bin: no other choice `cs` of cut points between the groups which contains the cut point after every
flagged group, meets the limits, and for which the means rise if a trend is asked for, has a larger sum of distances between the means of its
bins and the overall mean, up to one millionth per bin. -/
theorem C123_optimal (hax : ∀ l g, (argsort l g).Perm (List.range g.length)) (hull : List ℚ → Option ℚ) (pv : ℚ → ℝ → ℕ → ℚ → ℝ → ℕ → ℝ)
    (hu : UnitWeights recs) (h : fitCatFixedC p cutoff sc argsort solver old u recs = .ok (old', u', f))
    (hr : RespectsC (p.forCategorical.cfgFixed hull pv recs.length u'.fixed) solver) (hs : f.status = "OPTIMAL") (h2 : 2 ≤ u.splits.length)
    (ho : ∀ g ∈ u.splits, Occurs sc recs g) (cs : List ℕ) (hcs : cs.Pairwise (· < ·)) (hin : ∀ i ∈ cs, 0 < i ∧ i < u.splits.length)
    (hfix : ∀ (q : ℕ) (g : List κ), f.groups[q]? = some g → IsFixed u g → q + 1 < u.splits.length → q + 1 ∈ cs)
    (hm : CutsMeetC { p with trend := .none } pv recs.length (groupedRecsC sc f.groups recs) cs)
    (ha : p.trend ≠ .none → MeansRise (groupedRecsC sc f.groups recs) cs 0 (cs.length + 1)) :
    cutDistance (groupedRecsC sc f.groups recs) cs ≤
      cutDistance (groupedRecsC sc f.groups recs) (f.splits.dropLast.map (· + 1)) + ((cs.length : ℚ) + 1) / 1000000 := by
  have hsame := catFixed_same hax h
  have hsg := sortedBy_perm hax
  obtain ⟨-, -, h3⟩ := fitCatUserParamsC_ok hsame
  obtain ⟨-, -, -, h4, h5, h6, h7, -, special, st', -, h10, rfl⟩ := fitCatFixedC_unpack h
  obtain ⟨hperm, hn, hpos, hmo⟩ := userC_groups hsg h3
  have hgl : f.groups.length ≠ 0 := by
    rw [hperm.length_eq]; exact fun hc => h4 (List.length_eq_zero_iff.1 hc)
  obtain ⟨hc, pb, hpb, hst, -⟩ := fitCoreC_user_cases (by simpa using hgl) h10
  have hsub := (computePrebinsC_spec _ _ _ _ _ hpb).1
  have hu' : UnitWeights (((splitDataC sc none recs).clean.filter fun r => !r.inCats f.others).map (RecC.encodeGroup f.groups)) := by
    intro q hq
    obtain ⟨r, hr, rfl⟩ := List.mem_map.1 hq
    exact hu r ((userC_main hsg h3).1 hr).1
  have hall : pb.splits = List.range f.groups.length := by
    refine hsub.eq_of_length_le ?_
    have hsubset : List.range f.groups.length ⊆ pb.splits := by
      intro i hi
      have hi' := List.mem_range.1 hi
      have hg := List.getElem?_eq_getElem hi'
      obtain ⟨v, hv, r, h1, h2, h3x⟩ := ho _ (hperm.mem_iff.1 (List.getElem_mem hi'))
      have hr := (userC_main hsg h3).2 ⟨h1, h2, v, h3x, i, _, hg, hv⟩
      exact computePrebinsC_keeps hu' (List.mem_map.2 ⟨r, hr, rfl⟩) (userC_code hsg h3 h3x hg hv) _ _ _ List.pairwise_lt_range hi hpb
    exact (List.nodup_range.subperm hsubset).length_le
  have hstay := computePrebinsC_stay hpb hall
  have hst2 : pb.st = _ := congrArg PrebinsC.st (Except.ok.inj (hpb.symm.trans (hstay _)))
  simp only at hst2
  rw [hst, hst2] at hr
  cases hfx : u.fixed with
  | none =>
    rw [hfx] at hr
    have hcfg : p.forCategorical.cfgFixed hull pv recs.length none = p.forCategorical.cfg hull pv recs.length := by
      unfold ParamsC.cfgFixed
      have : (fun cells => { (p.forCategorical.cfg hull pv recs.length).opts cells with fixed := none }) =
          (p.forCategorical.cfg hull pv recs.length).opts := by
        funext cells
        have := cfgC_fixed p.forCategorical hull pv recs.length cells
        cases hoo : (p.forCategorical.cfg hull pv recs.length).opts cells
        rw [hoo] at this
        simp only at this
        subst this
        rfl
      rw [show (Option.map (fun (l : FlagArray) i => l.values.getD i false) (none : Option FlagArray)) = none from rfl, this]
    exact C122_optimal hsg hull pv hu hsame (by rw [← hcfg]; exact hr) hs h2 ho cs hcs hin hm ha
  | some fx =>
    rw [hfx] at hr
    simp only [Option.map_some] at hr
    set idx := argsort ((splitDataC sc none recs).clean.filter fun r => !r.inCats f.others) u.splits with hidx
    set F := idx.map fun i => fx.values.getD i false with hF
    have hidl : idx.length = u.splits.length := by rw [(hax _ _).length_eq, List.length_range]
    have hFl : F.length = u.splits.length := by simp [hF, hidl]
    obtain ⟨pre, o, g, g1, g2, -, -, g5, g6⟩ := user_numericalC_full hsg (fun cells hn => hr.last cells hn) hu hsame (Or.inr ⟨h2, ho⟩)
    have hpre := g6 ho
    set cuts := (List.range u.splits.length).dropLast.map (· + 1) with hcuts
    have hcuts' : cuts = List.range' 1 (u.splits.length - 1) := by
      rw [hcuts, List.dropLast_eq_take, List.length_range, List.take_range, Nat.min_eq_left (by omega), List.range'_eq_map_range]
      simp only [Nat.add_comm]
    have hcl : cuts.length + 1 = u.splits.length := by rw [hcuts']; simp; omega
    have hsort : cuts.Pairwise (· < ·) := by rw [hcuts']; exact List.pairwise_lt_range'
    have hun : UnitWeights (userAsNumbers sc f.groups f.others recs) := by
      intro q hq
      unfold userAsNumbers at hq
      obtain ⟨r, hr, rfl⟩ := List.mem_map.1 hq
      split_ifs
      · exact hu r hr
      · rfl
    have hcleq : (splitDataC .none none (userAsNumbers sc f.groups f.others recs)).clean = groupedRecsC sc f.groups recs := by
      rw [userAsNumbers_clean, groupedRecsC_eq hsg h3]
    have hfill : CutsFilled (groupedRecsC sc f.groups recs) cuts := grouped_filled hsg h3 h2 ho
    have hplain : PlainTrendC p.forCategorical (splitDataC .none none (userAsNumbers sc f.groups f.others recs)).clean := by
      refine Or.inl ?_
      by_cases ht : p.trend = .none
      · exact Or.inl (by simp [ParamsC.forCategorical, TrendArg.categorical, ht])
      · exact Or.inr (Or.inl (catC_trend ht))
    obtain ⟨o', hfit⟩ := fitParamsC_as_user (F := F.take (u.splits.length - 1))
      (solver' := fun cells => if cells.length = u.splits.length then solver cells else .other "UNKNOWN") hpre
      (by rw [List.length_take, hFl]; omega) hsort (fun h0 => by rw [h0] at hcl; simp at hcl; omega) hun (by rw [hcleq]; exact hfill)
      (fun cells hl => by rw [if_pos (by omega)]) g1
    have hasc : ∀ t, asCutC p.forCategorical (fun _ => (id : ℕ → ℕ)) t = t := by
      intro t
      rw [← roundedC_asCut, rounded_id]
      rfl
    have hasm : ∀ l : List ℕ, l.map (asCutC p.forCategorical (fun _ => (id : ℕ → ℕ))) = l := fun l => by
      rw [show asCutC p.forCategorical (fun _ => (id : ℕ → ℕ)) = id from funext hasc, List.map_id]
    have hins : cuts.insertionSort (· ≤ ·) = cuts := List.Pairwise.insertionSort_eq (hsort.imp fun h => Nat.le_of_lt h)
    obtain ⟨ps, -, -, c, d⟩ := C120_optimal hull pv hun hplain (fun _ => monotone_id) (by rw [hasm]; exact hsort.imp fun h => Nat.ne_of_lt h) hfit
      (by rw [userAsNumbers_length]; exact respectsC_take hr) (g2.trans hs)
    simp only [hins, hasm, hcleq] at c
    rw [hcleq, userAsNumbers_length, g5] at d
    have hps := c hfill
    refine d cs ?_ ?_ (meet_catC hm ha)
    · rw [hps, hcuts']
      refine List.sublist_of_subperm_of_pairwise ?_ hcs List.pairwise_lt_range'
      exact List.subperm_of_subset (hcs.imp fun h => h.ne) fun i hi => by
        have := hin i hi
        rw [List.mem_range'_1]
        omega
    · rintro s ⟨fx', hfx', hmem⟩
      rw [hasc]
      simp only [Option.some.injEq] at hfx'
      subst hfx'
      obtain ⟨q, hq, hqe⟩ := List.mem_iff_getElem.1 hmem
      rw [List.getElem_zip, Prod.mk.injEq] at hqe
      simp only at hqe hq
      rw [List.length_zip, List.length_take, hFl] at hq
      have hq1 : q + 1 < u.splits.length := by omega
      have hqs : q + 1 = s := by
        rw [← hqe.1]
        simp [hcuts]
      have hqF : F[q]'(by omega) = true := by
        have := hqe.2
        rwa [List.getElem_take] at this
      rw [← hqs]
      have hqi : q < idx.length := by omega
      have hi : idx[q] < u.splits.length := List.mem_range.1 ((hax _ _).mem_iff.1 (List.getElem_mem hqi))
      have hFq : fx.values.getD idx[q] false = true := by
        rw [← hqF]; simp [hF]
      have hi2 : idx[q] < fx.values.length := by
        by_contra hno
        rw [List.getD_eq_default _ _ (by omega)] at hFq
        cases hFq
      rw [List.getD_eq_getElem _ _ hi2] at hFq
      refine hfix q (u.splits[idx[q]]) ?_ ⟨fx, hfx, ?_⟩ hq1
      · rw [h7]
        unfold sortedBy
        rw [List.getElem?_map, ← hidx, List.getElem?_eq_getElem hqi, Option.map_some, List.getD_eq_getElem _ _ hi]
      · rw [List.mem_iff_getElem]
        exact ⟨idx[q], by simp; omega, by rw [List.getElem_zip, hFq]⟩

end OptBinning
