import Verif.Props.Scenarios

/-!
# Property C62: when the fit of `SBOptimalBinning` succeeds, and fixed splits
-/
set_option linter.unusedSectionVars false
set_option linter.unusedSimpArgs false
namespace OptBinning
open Spec Finset

variable {α : Type*} [LinearOrder α]

theorem prebin_mixed {sc : SpecialCodes α} {splits : List α} (hs : splits.Pairwise (· ≤ ·)) {recs : Scen α} :
    MixedIn sc splits recs ↔ ∀ i ≤ splits.length,
      0 < countClass false (inPrebin splits (splitDataM sc none recs).clean i) ∧
      0 < countRest false (inPrebin splits (splitDataM sc none recs).clean i) := by
  refine forall_congr' fun i => forall_congr' fun hi => ?_
  rw [Bool.forall_bool]
  unfold countClass countRest
  rw [List.countP_pos_iff, List.countP_pos_iff]
  refine and_congr ?_ ?_
  · constructor
    · rintro ⟨r, hr, hy, v, hx, hsp, hin⟩
      refine ⟨r, List.mem_filter.2 ⟨splitM_clean_none.2 ⟨hr, by simp [hx], by simp [hy], by rw [hx]; exact hsp⟩, ?_⟩, by simp [hy]⟩
      rw [hx]
      simpa using (inInterval_iff hs v i).2 hin
    · rintro ⟨r, hr, hy⟩
      obtain ⟨h1, h2⟩ := List.mem_filter.1 hr
      obtain ⟨h3, h4, h5, h6⟩ := splitM_clean_none.1 h1
      obtain ⟨v, hv⟩ := Option.ne_none_iff_exists'.1 h4
      rw [hv] at h2 h6
      exact ⟨r, h3, by simpa using hy, v, hv, h6, (inInterval_iff hs v i).1 (by simpa using h2)⟩
  · constructor
    · rintro ⟨r, hr, hy, v, hx, hsp, hin⟩
      refine ⟨r, List.mem_filter.2 ⟨splitM_clean_none.2 ⟨hr, by simp [hx], by simp [hy], by rw [hx]; exact hsp⟩, ?_⟩, by simp [hy]⟩
      rw [hx]
      simpa using (inInterval_iff hs v i).2 hin
    · rintro ⟨r, hr, hy⟩
      obtain ⟨h1, h2⟩ := List.mem_filter.1 hr
      obtain ⟨h3, h4, h5, h6⟩ := splitM_clean_none.1 h1
      obtain ⟨v, hv⟩ := Option.ne_none_iff_exists'.1 h4
      rw [hv] at h2 h6
      refine ⟨r, h3, ?_, v, hv, h6, (inInterval_iff hs v i).1 (by simpa using h2)⟩
      rcases hyy : r.y with _ | _ | _
      · exact absurd hyy h5
      · simp [hyy] at hy
      · rfl

/-- Without pure pre-bins nothing is refined. -/
theorem computePrebinsS_mixed {clean : List (Scen α)} {st : ScenState α} {splits : List α} (hne : splits ≠ [])
    (h : ∀ recs ∈ clean, ∀ i ≤ splits.length, 0 < countClass false (inPrebin splits recs i) ∧
      0 < countRest false (inPrebin splits recs i)) :
    computePrebinsS clean st splits = .ok ⟨{}, splits, splits.length + 1, clean.map (prebinNonevent splits),
      clean.map (prebinEventS splits)⟩ := by
  rw [computePrebinsS]
  simp only
  rw [dif_neg (fun hc => hne (List.length_eq_zero_iff.1 hc)), dif_neg]
  rw [Bool.not_eq_true, List.any_eq_false]
  intro b hb hb'
  unfold pureMaskM at hb
  obtain ⟨i, hi, rfl⟩ := List.mem_map.1 hb
  have hi' := List.mem_range.1 hi
  simp only [id] at hb'
  rw [List.any_eq_true] at hb'
  obtain ⟨p, hp, hp'⟩ := hb'
  rw [List.zip_map] at hp
  obtain ⟨⟨r1, r2⟩, hq, rfl⟩ := List.mem_map.1 hp
  obtain ⟨j, hj, hjq⟩ := List.mem_iff_getElem.1 hq
  rw [List.getElem_zip, Prod.mk.injEq] at hjq
  have hr : r1 = r2 := hjq.1.symm.trans hjq.2
  subst hr
  have hmem : r1 ∈ clean := (List.of_mem_zip hq).1
  have := h r1 hmem i (by omega)
  simp only [Prod.map, prebinNonevent, prebinEventS, prebinEvent, prebinRest, List.getD, List.getElem?_map,
    List.getElem?_range hi', Option.map_some, Option.getD_some, Bool.or_eq_true, beq_iff_eq] at hp'
  omega

section
variable {c : ScenCfg} {sc : SpecialCodes α} {solver : SolverS} {w : List ℝ} {scens : List (Scen α)} {f : FittedS α}

/-- C62: a successful fit without `user_splits` keeps a non-empty set of candidate splits whose intervals all contain
non-events and events of every scenario, and the final splits are among them. -/
theorem C62_mixed_candidates {prebin : List (RecM α Bool) → List α} (hsort : ∀ l, (prebin l).Pairwise (· ≤ ·))
    (h : fitScen c sc prebin solver scens = .ok f) :
    ∃ ps : List α, ps ≠ [] ∧ ps.Sublist (prebin ((scens.map fun s => (splitDataM sc none s).clean).flatten)) ∧
      f.splits.Sublist ps ∧ ∀ recs ∈ scens, MixedIn sc ps recs := by
  unfold fitScen fitFromS at h
  simp only at h
  split_ifs at h with hd hz
  cases hpb : computePrebinsS ((scens.map (splitDataM sc none)).map SplitM.clean) {}
      (prebin ((scens.map fun s => (splitDataM sc none s).clean).flatten)) with
  | error e => simp only [hpb, reduceCtorEq] at h
  | ok pb =>
    simp only [hpb] at h
    obtain ⟨hsub, hcase⟩ := computePrebinsS_spec _ _ _ _ hpb
    split_ifs at h with h0
    simp only [Except.ok.injEq] at h
    subst h
    rcases hcase with ⟨h1, -⟩ | ⟨h1, h2, h3, h4, h5⟩
    · exact absurd (by rw [h1]; rfl) h0
    · refine ⟨pb.splits, h1, hsub, select_sublist _ _, fun recs hrecs => ?_⟩
      exact (prebin_mixed ((hsort _).sublist hsub)).2 fun i hi =>
        h5 i hi _ (List.mem_map.2 ⟨_, List.mem_map.2 ⟨_, hrecs, rfl⟩, rfl⟩)

/-- C62, finding: the fit raises an exception, instead of returning one bin, if the pre-binning finds no split or if no
subset of its splits separates every scenario into mixed intervals — in particular if one scenario has no regular event or
no regular non-event. -/
theorem C62_fails {prebin : List (RecM α Bool) → List α} (hsort : ∀ l, (prebin l).Pairwise (· ≤ ·))
    (hno : ∀ ps : List α, ps ≠ [] → ps.Sublist (prebin ((scens.map fun s => (splitDataM sc none s).clean).flatten)) →
      ∃ recs ∈ scens, ¬ MixedIn sc ps recs) : ∃ e, fitScen c sc prebin solver scens = .error e := by
  cases h : fitScen c sc prebin solver scens with
  | error e => exact ⟨e, rfl⟩
  | ok f =>
    obtain ⟨ps, h1, h2, -, h4⟩ := C62_mixed_candidates hsort h
    obtain ⟨recs, h5, h6⟩ := hno ps h1 h2
    exact absurd (h4 recs h5) h6

/-- C62, finding: a scenario with a single class makes `fit` raise. -/
theorem C62_single_class_fails {prebin : List (RecM α Bool) → List α} (hsort : ∀ l, (prebin l).Pairwise (· ≤ ·))
    {recs : Scen α} (hrec : recs ∈ scens) {b : Bool} (hb : ∀ r ∈ recs, r.y ≠ some b) :
    ∃ e, fitScen c sc prebin solver scens = .error e := by
  refine C62_fails hsort fun ps _ _ => ⟨recs, hrec, fun hm => ?_⟩
  obtain ⟨r, hr, hy, -⟩ := hm 0 (Nat.zero_le _) b
  exact hb r hr hy

/-- C62: if the pre-binning returns at least one split and each of its intervals contains non-events and events of every
scenario, `fit` succeeds (for `special_codes` not a dict, at least one scenario). -/
theorem C62_succeeds {prebin : List (RecM α Bool) → List α} (hsort : ∀ l, (prebin l).Pairwise (· ≤ ·))
    (hd : sc.isDict = false) (hne : scens ≠ [])
    (hsp : prebin ((scens.map fun s => (splitDataM sc none s).clean).flatten) ≠ [])
    (hm : ∀ recs ∈ scens, MixedIn sc (prebin ((scens.map fun s => (splitDataM sc none s).clean).flatten)) recs) :
    ∃ f, fitScen c sc prebin solver scens = .ok f := by
  unfold fitScen fitFromS
  simp only [hd]
  rw [if_neg (by simp), if_neg (by rw [List.length_eq_zero_iff]; exact hne), computePrebinsS_mixed hsp]
  · simp only
    rw [if_neg (by rw [List.length_eq_zero_iff]; exact hsp)]
    exact ⟨_, rfl⟩
  · intro recs hr i hi
    obtain ⟨s, hs, rfl⟩ := List.mem_map.1 hr
    obtain ⟨recs', h1, rfl⟩ := List.mem_map.1 hs
    exact (prebin_mixed (hsort _)).1 (hm recs' h1) i hi

/-- C62, part: `user_splits` in any order with flags.  If every interval of the sorted user splits `l` contains non-events and
events of every scenario (so that nothing has to be refined), every split flagged as fixed is a split of the result.
Missing: the case in which the refinement removes a split; there the claim is false (`C62_fixed_lost`). -/
theorem C62_fixed_splits_partial {us l : List α} {fx : List Bool} (hr : RespectsS w solver)
    (hl : l.Perm us) (hs : l.Pairwise (· ≤ ·)) (hm : ∀ recs ∈ scens, MixedIn sc l recs) (hlen : fx.length = us.length)
    (h : fitUserS c sc solver us (some fx) scens = .ok f) (hsol : f.Solved) {v : α} (hv : (v, true) ∈ us.zip fx) :
    v ∈ f.splits := by
  unfold fitUserS at h
  split_ifs at h with h0
  cases hso : sortUserSplits { userSplits := us, fixed := some fx } with
  | error e => simp [hso] at h
  | ok p =>
    simp only [hso] at h
    obtain ⟨st1, sorted⟩ := p
    have hsort : st1.fixed = some (((us.zip fx).insertionSort fun a b => a.1 ≤ b.1).map Prod.snd) ∧
        sorted = ((us.zip fx).insertionSort fun a b => a.1 ≤ b.1).map Prod.fst := by
      unfold sortUserSplits at hso
      split_ifs at hso
      simp only [Except.ok.injEq, Prod.mk.injEq] at hso
      obtain ⟨e1, e2⟩ := hso
      exact ⟨by rw [← e1], e2.symm⟩
    obtain ⟨hf1, hf2⟩ := hsort
    have hmem : (v, true) ∈ sorted.zip (((us.zip fx).insertionSort fun a b => a.1 ≤ b.1).map Prod.snd) := by
      rw [hf2, ← List.unzip_fst, ← List.unzip_snd, List.zip_unzip]
      exact (List.mem_insertionSort _).2 hv
    have hsl : sorted = l := by
      have hp : sorted.Perm us := by
        rw [hf2]
        have := (List.perm_insertionSort (fun a b : α × Bool => a.1 ≤ b.1) (us.zip fx)).map Prod.fst
        rwa [List.map_fst_zip (by omega)] at this
      exact (hp.trans hl.symm).eq_of_pairwise (fun a b _ _ => le_antisymm)
        (sorted_sortUserSplits (st1 := st1) (l := sorted) hso) hs
    subst hsl
    have hne : sorted ≠ [] := by
      intro hc
      rw [hc] at hmem
      simp at hmem
    unfold fitFromS at h
    simp only at h
    split_ifs at h with hd hz
    rw [computePrebinsS_mixed hne] at h
    swap
    · intro recs hr i hi
      obtain ⟨s, hs', rfl⟩ := List.mem_map.1 hr
      obtain ⟨recs', h1, rfl⟩ := List.mem_map.1 hs'
      exact (prebin_mixed hs).1 (hm recs' h1) i hi
    simp only at h
    rw [if_neg (by rw [List.length_eq_zero_iff]; exact hne)] at h
    simp only [Except.ok.injEq] at h
    set nev := ((scens.map (splitDataM sc none)).map SplitM.clean).map (prebinNonevent sorted) with hnev
    set ev := ((scens.map (splitDataM sc none)).map SplitM.clean).map (prebinEventS sorted) with hev
    set o := c.opts (scens.map List.length) st1.fixed with ho
    have hrect : (c.input (sorted.length + 1) nev ev).Rect := by
      refine ⟨Nat.succ_pos _, ?_, ?_, ?_, ?_⟩
      · change 0 < ev.length
        rw [hev]; simp; omega
      · change nev.length = ev.length
        simp [hev, hnev]
      · intro l hl
        change l ∈ ev at hl
        change l.length = sorted.length + 1
        rw [hev, List.mem_map] at hl
        obtain ⟨cl, -, rfl⟩ := hl
        simp [prebinEventS, prebinRest]
      · intro l hl
        change l ∈ nev at hl
        change l.length = sorted.length + 1
        rw [hnev, List.mem_map] at hl
        obtain ⟨cl, -, rfl⟩ := hl
        simp [prebinNonevent, prebinEvent]
    have hvalid := hr o (c.input (sorted.length + 1) nev ev)
    have hs2 : OptBinning.Solved (solve (c.input (sorted.length + 1) nev ev).n (solver o (c.input (sorted.length + 1) nev ev))) := by
      rw [← h] at hsol
      exact hsol
    obtain ⟨-, -, -, hfix⟩ := C58_limits hrect hvalid hs2
    obtain ⟨i, hi, hie⟩ := List.mem_iff_getElem.1 hmem
    rw [List.getElem_zip, Prod.mk.injEq] at hie
    have hi1 : i < sorted.length := by simp at hi; omega
    have hflag : solOf (solve (sorted.length + 1) (solver o (c.input (sorted.length + 1) nev ev))).2 i = true := by
      refine hfix (fun j => (((us.zip fx).insertionSort fun a b => a.1 ≤ b.1).map Prod.snd).getD j false) ?_ i
        (by change i + 1 < sorted.length + 1; omega) ?_
      · rw [ho, hf1]; rfl
      · beta_reduce
        rw [List.getD_eq_getElem _ _ (by simp at hi; simp; omega), hie.2]
    have hsl := solve_length (sorted.length + 1) (solver o (c.input (sorted.length + 1) nev ev))
    rw [← h, ← hie.1]
    refine mem_select hi1 (by simp [hsl]; omega) ?_
    rw [List.getElem_dropLast]
    unfold solOf at hflag
    rwa [List.getD_eq_getElem _ _ (by omega)] at hflag

end

/-! ### concrete fits -/

/-- A solver which returns the binning `target n` whenever the model accepts it, and gives up otherwise. -/
noncomputable def exSolverS (target : ℕ → ℕ → Bool) : SolverS := fun o inp => by
  classical
  exact if h : (∃ a, acceptsScen o inp a ∧ ∀ k < inp.n, (a.x k k != 0) = target inp.n k)
    then .feasible (Classical.choose h) else .other "UNKNOWN"

theorem exSolverS_respects (w : List ℝ) (target : ℕ → ℕ → Bool) : RespectsS w (exSolverS target) := by
  intro o inp
  unfold exSolverS
  split_ifs with h
  · exact (Classical.choose_spec h).1
  · exact ⟨by decide, by decide⟩

theorem exSolverS_solve {target : ℕ → ℕ → Bool} {o : ScenOpts} {inp : MultiInput}
    (h : ∃ a, acceptsScen o inp a ∧ ∀ k < inp.n, (a.x k k != 0) = target inp.n k) :
    solve inp.n (exSolverS target o inp) = ("FEASIBLE", (List.range inp.n).map (target inp.n)) := by
  unfold exSolverS
  rw [dif_pos h]
  have := (Classical.choose_spec h).2
  simp only [solve, Prod.mk.injEq, true_and]
  exact List.map_congr_left fun k hk => this k (List.mem_range.1 hk)

/-- A scenario: values 1, 2, 3, 4 with the given numbers of non-events and events, a special code 99 (event) and a missing
value (non-event). -/
def exScenario (l : List (ℕ × ℕ × ℕ)) : Scen ℕ :=
  (l.flatMap fun p => List.replicate p.2.1 ⟨some p.1, some false⟩ ++ List.replicate p.2.2 ⟨some p.1, some true⟩) ++
    [⟨some 99, some true⟩, ⟨none, some false⟩]

/-- Two scenarios with event rates 1/3, 1/2, 2/3 in the first and 1/2, 2/3, 2/3 in the second. -/
def exScens : List (Scen ℕ) := [exScenario [(1, 2, 1), (2, 2, 2), (3, 1, 2)], exScenario [(1, 1, 1), (2, 1, 2), (3, 1, 2)]]

/-- Ascending trend, at least 20% of the records in every bin. -/
def exCfgS : ScenCfg := { trend := .ascending, minSize := some (1 / 5), maxBins := some 3 }

theorem exScens_acc : ∃ a, acceptsScen (exCfgS.opts [12, 10] none) (exCfgS.input 3 [[2, 2, 1], [1, 1, 1]] [[1, 2, 2], [1, 2, 2]]) a ∧
    ∀ k < 3, (a.x k k != 0) = true := by
  set inp := exCfgS.input 3 [[2, 2, 1], [1, 1, 1]] [[1, 2, 2], [1, 2, 2]] with hinp
  have hrect : inp.Rect := ⟨by decide, by decide, rfl, by decide, by decide⟩
  have hval : ∀ i < 2, ∀ k < 3,
      binTotal (inp.cls i).ne k k = ((((inp.nonevent.getD i []).getD k 0 : ℕ) : ℤ)) ∧
      binTotal (inp.cls i).ev k k = ((((inp.event.getD i []).getD k 0 : ℕ) : ℤ)) := by
    intro i _ k _
    unfold binTotal
    rw [Finset.Icc_self, Finset.sum_singleton, Finset.sum_singleton]
    exact ⟨rfl, rfl⟩
  have hnb : numBins 3 (fun _ => true) = 3 := by decide
  refine (C59_exact_partial (o := exCfgS.opts [12, 10] none) hrect (by decide) trivial (fun _ => true)).2 ⟨?_, ?_⟩
  · intro i hi s e s' e' hb hb' hlt _ _
    have hi' : i < 2 := hi
    obtain ⟨rfl, h3⟩ := exAll_bins.1 hb
    obtain ⟨rfl, h4⟩ := exAll_bins.1 hb'
    refine Int.floor_le_floor ?_
    unfold eventRate
    rw [(hval i hi' _ h3).1, (hval i hi' _ h3).2, (hval i hi' _ h4).1, (hval i hi' _ h4).2]
    have h1 : i = 0 ∨ i = 1 := by omega
    have h2 : s = 0 ∧ s' = 1 ∨ s = 0 ∧ s' = 2 ∨ s = 1 ∧ s' = 2 := by omega
    rcases h1 with rfl | rfl <;> rcases h2 with ⟨rfl, rfl⟩ | ⟨rfl, rfl⟩ | ⟨rfl, rfl⟩ <;> norm_num [hinp, ScenCfg.input]
  · intro i hi
    have hi' : i < 2 := hi
    refine ⟨⟨⟨by decide, rfl⟩, ?_, ?_, ?_, ?_, ?_, ?_, ?_, ?_, trivial, ?_⟩, ?_, ?_⟩
    · intro b hb; cases hb
    · intro b hb
      change some 3 = some b at hb
      change ((numBins 3 (fun _ => true) : ℕ) : ℤ) ≤ b
      rw [hnb]; cases hb; norm_num
    · intro s e hb' b hb
      obtain ⟨rfl, h3⟩ := exAll_bins.1 hb'
      rw [(hval i hi' _ h3).1, (hval i hi' _ h3).2]
      have h1 : i = 0 ∨ i = 1 := by omega
      have h2 : s = 0 ∨ s = 1 ∨ s = 2 := by omega
      have hb2 : (([12, 10] : List ℕ).map fun m : ℕ => ⌈(1 / 5 : ℚ) * (m : ℚ)⌉).getD i 0 = b := by
        simpa [ScenOpts.limits, ScenCfg.opts, exCfgS] using hb
      have c1 : ⌈(1 / 5 : ℚ) * ((12 : ℕ) : ℚ)⌉ = 3 := by rw [Int.ceil_eq_iff]; norm_num
      have c2 : ⌈(1 / 5 : ℚ) * ((10 : ℕ) : ℚ)⌉ = 2 := by rw [Int.ceil_eq_iff]; norm_num
      simp only [List.map_cons, List.map_nil, c1, c2] at hb2
      rw [← hb2]
      rcases h1 with rfl | rfl <;> rcases h2 with rfl | rfl | rfl <;> norm_num [hinp, ScenCfg.input]
    · intro s e _ b hb; cases hb
    · intro s e _ b hb; cases hb
    · intro s e _ b hb; cases hb
    · intro s e _ b hb; cases hb
    · intro s e _ b hb; cases hb
    · intro f hf; cases hf
    · rintro s e s' e' - - - - ⟨t, ht, -⟩
      cases ht
    · rintro s e s' e' - - - - ⟨h0, -⟩
      exact absurd h0 (by change ¬ ((0 : ℚ) < 0); norm_num)

/-- The fitted object: rows for the three intervals, special and missing. -/
def exFittedS : FittedS ℕ := ⟨"FEASIBLE", [2, 3], [[2, 2, 1, 0, 1], [1, 1, 1, 0, 1]], [[1, 2, 2, 1, 0], [1, 2, 2, 1, 0]]⟩

theorem exFitS : fitScen exCfgS (.list [some 99]) (fun _ => [2, 3]) (exSolverS fun _ _ => true) exScens = .ok exFittedS := by
  have hpb : computePrebinsS ((exScens.map (splitDataM (.list [some 99]) none)).map SplitM.clean) {} [2, 3] =
      .ok ⟨{}, [2, 3], 3, [[2, 2, 1], [1, 1, 1]], [[1, 2, 2], [1, 2, 2]]⟩ := by
    rw [computePrebinsS]
    have h1 : ((exScens.map (splitDataM (.list [some 99]) none)).map SplitM.clean).map (prebinNonevent [2, 3]) =
        [[2, 2, 1], [1, 1, 1]] := by decide +kernel
    have h2 : ((exScens.map (splitDataM (.list [some 99]) none)).map SplitM.clean).map (prebinEventS [2, 3]) =
        [[1, 2, 2], [1, 2, 2]] := by decide +kernel
    simp only [h1, h2]
    rw [dif_neg (by decide), dif_neg (by decide +kernel)]
    rfl
  have hsz : exScens.map List.length = [12, 10] := by decide +kernel
  have hsolve := exSolverS_solve (target := fun _ _ => true) exScens_acc
  unfold fitScen fitFromS
  simp only [hpb]
  rw [if_neg (by decide), if_neg (by decide), if_neg (by decide), hsz]
  change solve 3 _ = _ at hsolve
  rw [hsolve]
  simp only [Except.ok.injEq]
  unfold exFittedS
  congr 1

/-- Non-vacuity of C60, C61: the fit above is a result as in their hypotheses, solved, with proper codes and known
targets. -/
theorem exFitS_result : FitResultS exCfgS (.list [some 99]) (exSolverS fun _ _ => true) exScens exFittedS ∧ exFittedS.Solved ∧
    RespectsS [1, 1] (exSolverS fun _ _ => true) ∧ ∀ recs ∈ exScens, ∀ r ∈ recs, r.y ≠ none :=
  ⟨Or.inl ⟨_, fun _ => by decide, exFitS⟩, Or.inr rfl, exSolverS_respects _ _, by decide +kernel⟩

example : RowsTrendInAll 2 2 (fun i k => ⌊exFittedS.rate i k * 1000000⌋) .ascending :=
  C61_trend (c := exCfgS) exFitS_result.2.2.1 trivial exFitS_result.1 exFitS_result.2.1

/-- Without options other than fixed splits, every binning with the fixed splits is accepted. -/
theorem accepts_plain {inp : MultiInput} (hrect : inp.Rect) (hmd : inp.minDiff = 0) (ht : inp.test = none)
    {fx : Option (List Bool)} {sizes : List ℕ} {sol : ℕ → Bool} (hb : IsBinning inp.n sol)
    (hfx : ∀ l, fx = some l → ∀ i, i + 1 < inp.n → l.getD i false = true → sol i = true) :
    ∃ a, acceptsScen (({} : ScenCfg).opts sizes fx) inp a ∧ ∀ k < inp.n, (a.x k k != 0) = sol k := by
  refine (C59_exact_partial (o := ({} : ScenCfg).opts sizes fx) hrect (by simp [ScenCfg.opts]) trivial sol).2 ⟨fun i _ => trivial, fun i hi => ?_⟩
  refine ⟨⟨hb, ?_, ?_, ?_, ?_, ?_, ?_, ?_, ?_, trivial, ?_⟩, ?_, ?_⟩
  · intro b hb; cases hb
  · intro b hb; cases hb
  · intro s e _ b hb; cases hb
  · intro s e _ b hb; cases hb
  · intro s e _ b hb; cases hb
  · intro s e _ b hb; cases hb
  · intro s e _ b hb; cases hb
  · intro s e _ b hb; cases hb
  · intro g hg j hj hgj
    cases hfx' : fx with
    | none => rw [hfx'] at hg; cases hg
    | some l =>
      rw [hfx'] at hg
      have : (fun j => l.getD j false) = g := by
        change some (fun j => l.getD j false) = some g at hg
        exact Option.some.inj hg
      exact hfx l hfx' j hj (by rw [← this] at hgj; exact hgj)
  · rintro s e s' e' - - - - ⟨t, ht', -⟩
    change inp.test = some t at ht'
    rw [ht] at ht'
    cases ht'
  · rintro s e s' e' - - - - ⟨h0, -⟩
    change 0 < inp.minDiff at h0
    rw [hmd] at h0
    exact absurd h0 (lt_irrefl 0)

/-- Value 0 has only a non-event, the values 1, 2, 3 have both classes. -/
def exPureScen : Scen ℕ :=
  [⟨some 0, some false⟩, ⟨some 1, some false⟩, ⟨some 1, some true⟩, ⟨some 2, some false⟩, ⟨some 2, some true⟩,
   ⟨some 3, some false⟩, ⟨some 3, some true⟩]

/-- C62, finding: `user_splits=[1, 2, 3]` with 3 fixed.  The refinement removes the split 1, the flags passed to the solver
keep their old positions, and a valid answer drops the fixed split 3: the fit reports a solution with a single bin. -/
theorem C62_fixed_lost : ∃ f : FittedS ℕ, RespectsS [1] (exSolverS fun n k => k + 1 == n) ∧
    fitUserS {} .none (exSolverS fun n k => k + 1 == n) [1, 2, 3] (some [false, false, true]) [exPureScen] = .ok f ∧
    f.Solved ∧ 3 ∉ f.splits := by
  have hsort : sortUserSplits ({ userSplits := [1, 2, 3], fixed := some [false, false, true] } : PrebinState ℕ) =
      .ok ({ userSplits := [1, 2, 3], fixed := some [false, false, true] }, [1, 2, 3]) := by rfl
  have hpb : computePrebinsS (([exPureScen].map (splitDataM .none none)).map SplitM.clean)
      { fixed := some [false, false, true], fixedPriv := [false, false, true], splitsPriv := [1, 2, 3] } [1, 2, 3] =
      .ok ⟨{}, [2, 3], 3, [[2, 1, 1]], [[1, 1, 1]]⟩ := by
    rw [computePrebinsS]
    have h1 : (([exPureScen].map (splitDataM .none none)).map SplitM.clean).map (prebinNonevent [1, 2, 3]) = [[1, 1, 1, 1]] := by
      decide +kernel
    have h2 : (([exPureScen].map (splitDataM .none none)).map SplitM.clean).map (prebinEventS [1, 2, 3]) = [[0, 1, 1, 1]] := by
      decide +kernel
    simp only [h1, h2]
    rw [dif_neg (by decide), dif_pos (by decide +kernel), if_neg (by decide +kernel)]
    have h3 : select [1, 2, 3] ((maskSplits false (pureMaskM ([1, 2, 3].length + 1) [[1, 1, 1, 1]] [[0, 1, 1, 1]])).map (!·)) =
        [2, 3] := by decide +kernel
    rw [h3, computePrebinsS]
    have h1 : (([exPureScen].map (splitDataM .none none)).map SplitM.clean).map (prebinNonevent [2, 3]) = [[2, 1, 1]] := by
      decide +kernel
    have h2 : (([exPureScen].map (splitDataM .none none)).map SplitM.clean).map (prebinEventS [2, 3]) = [[1, 1, 1]] := by
      decide +kernel
    simp only [h1, h2]
    rw [dif_neg (by decide), dif_neg (by decide +kernel)]
    rfl
  have hacc := accepts_plain (inp := ({} : ScenCfg).input 3 [[2, 1, 1]] [[1, 1, 1]])
    ⟨by decide, by decide, rfl, by decide, by decide⟩ rfl rfl (fx := some [false, false, true]) (sizes := [7])
    (sol := fun k => k + 1 == 3) ⟨by decide, by decide⟩ (by
      intro l hl i hi h
      cases hl
      change i + 1 < 3 at hi
      have : i = 0 ∨ i = 1 := by omega
      rcases this with rfl | rfl <;> simp at h)
  have hsolve := exSolverS_solve (target := fun n k => k + 1 == n) hacc
  refine ⟨⟨"FEASIBLE", [], [[4, 0, 0]], [[3, 0, 0]]⟩, exSolverS_respects _ _, ?_, Or.inr rfl, by simp⟩
  unfold fitUserS
  rw [if_neg (by decide), hsort]
  simp only
  unfold fitFromS
  simp only [Option.getD_some, hpb]
  rw [if_neg (by decide), if_neg (by decide), if_neg (by decide)]
  have hsz : [exPureScen].map List.length = [7] := by decide +kernel
  rw [hsz]
  change solve 3 _ = _ at hsolve
  rw [hsolve]
  simp only [Except.ok.injEq]
  congr 1

/-- C62, finding: `user_splits=[2, 1]`, not in increasing order, with 1 fixed.  The refinement removes the fixed split 1
without an error, because the flags are compared in the order given by the user: the fit succeeds, whatever the solver answers, and the fixed split is not among its splits. -/
theorem C62_fixed_removed_silently (solver : SolverS) : ∃ f : FittedS ℕ,
    fitUserS {} .none solver [2, 1] (some [false, true]) [exPureScen] = .ok f ∧ 1 ∉ f.splits := by
  have hsort : sortUserSplits ({ userSplits := [2, 1], fixed := some [false, true] } : PrebinState ℕ) =
      .ok ({ userSplits := [2, 1], fixed := some [true, false] }, [1, 2]) := by rfl
  have hpb : computePrebinsS (([exPureScen].map (splitDataM .none none)).map SplitM.clean)
      { fixed := some [true, false], fixedPriv := [false, true], splitsPriv := [2, 1] } [1, 2] =
      .ok ⟨{}, [2], 2, [[2, 2]], [[1, 2]]⟩ := by
    rw [computePrebinsS]
    have h1 : (([exPureScen].map (splitDataM .none none)).map SplitM.clean).map (prebinNonevent [1, 2]) = [[1, 1, 2]] := by
      decide +kernel
    have h2 : (([exPureScen].map (splitDataM .none none)).map SplitM.clean).map (prebinEventS [1, 2]) = [[0, 1, 2]] := by
      decide +kernel
    simp only [h1, h2]
    rw [dif_neg (by decide), dif_pos (by decide +kernel), if_neg (by decide +kernel)]
    have h3 : select [1, 2] ((maskSplits false (pureMaskM ([1, 2].length + 1) [[1, 1, 2]] [[0, 1, 2]])).map (!·)) =
        [2] := by decide +kernel
    rw [h3, computePrebinsS]
    have h1 : (([exPureScen].map (splitDataM .none none)).map SplitM.clean).map (prebinNonevent [2]) = [[2, 2]] := by
      decide +kernel
    have h2 : (([exPureScen].map (splitDataM .none none)).map SplitM.clean).map (prebinEventS [2]) = [[1, 2]] := by
      decide +kernel
    simp only [h1, h2]
    rw [dif_neg (by decide), dif_neg (by decide +kernel)]
    rfl
  unfold fitUserS
  rw [if_neg (by decide), hsort]
  simp only
  unfold fitFromS
  simp only [Option.getD_some, hpb]
  rw [if_neg (by decide), if_neg (by decide), if_neg (by decide)]
  refine ⟨_, rfl, fun hc => ?_⟩
  have := (select_sublist _ _).mem hc
  simp at this

end OptBinning
