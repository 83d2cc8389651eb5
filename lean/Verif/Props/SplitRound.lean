import Verif.Model.SplitRound
import Verif.Props.CatParams

/-!
# C117, C118: what `split_digits` does to the splits
-/
namespace OptBinning
open OptBinning.Spec

theorem roundHalfEven_bounds (q : ℚ) : |q - roundHalfEven q| ≤ 1 / 2 := by
  have h0 := Int.fract_nonneg q
  have h1 := Int.fract_lt_one q
  have h2 : q = ⌊q⌋ + Int.fract q := (Int.floor_add_fract q).symm
  unfold roundHalfEven
  rw [abs_le]
  split_ifs <;> push_cast <;> constructor <;> linarith

theorem roundHalfEven_mono : Monotone roundHalfEven := by
  intro a b hab
  have hf : ⌊a⌋ ≤ ⌊b⌋ := Int.floor_le_floor hab
  have ha : a = ⌊a⌋ + Int.fract a := (Int.floor_add_fract a).symm
  have hb : b = ⌊b⌋ + Int.fract b := (Int.floor_add_fract b).symm
  rcases hf.lt_or_eq with hf | hf
  · have h1 : roundHalfEven a ≤ ⌊a⌋ + 1 := by unfold roundHalfEven; split_ifs <;> omega
    have h2 : ⌊b⌋ ≤ roundHalfEven b := by unfold roundHalfEven; split_ifs <;> omega
    omega
  · have hfr : Int.fract a ≤ Int.fract b := by rw [← hf] at hb; linarith
    unfold roundHalfEven
    rw [← hf]
    split_ifs <;> first | omega | (exfalso; linarith)

/-- C117: rounding keeps the order of the splits (the hypothesis of `C117_splits` and `C117_optimal_mip` about `rnd`). -/
theorem C117_round_monotone (d : ℤ) : Monotone (npRound d) := by
  intro a b hab
  have h10 : (0 : ℚ) < 10 ^ d := zpow_pos (by norm_num) d
  unfold npRound
  have := roundHalfEven_mono (mul_le_mul_of_nonneg_right hab h10.le)
  exact div_le_div_of_nonneg_right (Int.cast_le.2 this) h10.le

/-- C117: a split moves by at most half a unit of the last digit kept. -/
theorem C117_round_near (d : ℤ) (q : ℚ) : |q - npRound d q| ≤ (10 ^ d)⁻¹ / 2 := by
  have h10 : (0 : ℚ) < 10 ^ d := zpow_pos (by norm_num) d
  have h := roundHalfEven_bounds (q * 10 ^ d)
  have e : q - npRound d q = (q * 10 ^ d - roundHalfEven (q * 10 ^ d)) * (10 ^ d)⁻¹ := by
    unfold npRound; field_simp
  rw [e, abs_mul, abs_of_pos (inv_pos.2 h10)]
  have := mul_le_mul_of_nonneg_right h (inv_pos.2 h10).le
  linarith

theorem npRound_half (k : ℤ) : ∃ m : ℤ, npRound 0 ((k : ℚ) + 1 / 2) = ((2 * m : ℤ) : ℚ) := by
  have h1 : ⌊((k : ℚ) + 1 / 2)⌋ = k := by
    rw [Int.floor_eq_iff]; constructor <;> linarith
  have h2 : Int.fract ((k : ℚ) + 1 / 2) = 1 / 2 := by
    unfold Int.fract; rw [h1]; ring
  unfold npRound roundHalfEven
  simp only [zpow_zero, mul_one, div_one, h1, h2, lt_irrefl, if_false]
  split_ifs with h
  · exact ⟨k / 2, by congr 1; omega⟩
  · exact ⟨(k + 1) / 2, by congr 1; omega⟩

variable {κ : Type} [LinearOrder κ] {p : Params} {cutoff : Option XQ} {sc : SpecialCodes κ} {rank : List (Rec κ) → List κ}
  {prebin : List (Rec ℚ) → List ℚ} {solver : Solver} {recs : List (Rec κ)} {f : CatFitted κ}

theorem fitCore_splits {α : Type*} [LinearOrder α] {cfg : PrebinCfg} (hcat : cfg.catUser = false) {clean : List (Rec α)} {o : Bool → Option ℕ}
    {sp : Bool → List ℕ} {m : Bool → ℕ} {st : PrebinState α} {splits : List α} {r : PrebinState α × Fitted α}
    (h : fitCore cfg solver clean o sp m st splits = .ok r) : r.2.splits.Sublist splits := by
  unfold fitCore at h
  cases hpb : computePrebins cfg clean st splits with
  | error e => simp [hpb, bind, Except.bind] at h
  | ok pb =>
    simp only [hpb, bind, Except.bind, pure, Except.pure, Except.ok.injEq] at h
    obtain ⟨hsub, -⟩ := computePrebins_spec _ _ _ _ _ hpb
    subst h
    refine List.Sublist.trans ?_ hsub
    simp only [fitOptimizer, hcat]
    split_ifs
    · exact List.Sublist.refl _
    · contradiction
    · exact select_sublist _ _

/-- C118, finding: with `split_digits=0` the categories with the ranks 2j and 2j+1 (by event rate) always share a bin, whatever the data, the other arguments and the
solver, if the pre-binning cuts half way between codes (as the default `prebinning_method="cart"` does). -/
theorem C118_split_digits_pairs (hull : List ℚ → Option ℚ) (stale : Bool) (pv : ℕ → ℕ → ℕ → ℕ → ℝ) (hrank : ∀ l, IsRanking l (rank l))
    (hsort : ∀ l, (prebin l).Pairwise (· ≤ ·)) (hhalf : ∀ l, ∀ q ∈ prebin l, ∃ k : ℤ, q = (k : ℚ) + 1 / 2) (hd : p.splitDigits = some 0)
    (h : fitCatRounded p cutoff sc rank prebin solver recs = .ok f) (hr : Respects (p.forCategorical.cfg hull stale pv recs.length) solver)
    (v w : κ) (j : ℕ) (hv : f.categories[2 * j]? = some v) (hw : f.categories[2 * j + 1]? = some w) (k : ℕ) (hk : k ≤ f.splits.length) :
    v ∈ f.bins.getD k [] ↔ w ∈ f.bins.getD k [] := by
  unfold fitCatRounded at h
  have hround : p.rounded npRound = npRound 0 := by unfold Params.rounded; rw [hd]
  rw [hround] at h
  have hsort' : ∀ l, ((prebin l).map (npRound 0)).Pairwise (· ≤ ·) := fun l => List.pairwise_map.2 ((hsort l).imp fun hab => C117_round_monotone 0 hab)
  obtain ⟨hn, -, -⟩ := fit_categories hrank (fitCatParams_ok h).2.2
  obtain ⟨g, g1, -, g3, -⟩ := cat_numerical (fun nev ev hn => hr.last nev ev hn) h
  have hsub := fit_splits_sublist (fitParams_fit g1)
  rw [g3] at hsub
  have heven : ∀ s ∈ f.splits, ∃ m : ℤ, s = ((2 * m : ℤ) : ℚ) := by
    intro s hs
    obtain ⟨q, hq, rfl⟩ := List.mem_map.1 (hsub.subset hs)
    obtain ⟨a, rfl⟩ := hhalf _ q hq
    exact npRound_half a
  have hs : f.splits.Pairwise (· ≤ ·) := (hsort' _).sublist hsub
  obtain ⟨hvl, hv⟩ := List.getElem?_eq_some_iff.1 hv
  obtain ⟨hwl, hw⟩ := List.getElem?_eq_some_iff.1 hw
  have hvi : f.categories.idxOf v = 2 * j := by rw [← hv]; exact hn.idxOf_getElem _ _
  have hwi : f.categories.idxOf w = 2 * j + 1 := by rw [← hw]; exact hn.idxOf_getElem _ _
  rw [C118_bins hull stale pv hrank hsort' h hr v k hk, C118_bins hull stale pv hrank hsort' h hr w k hk, hvi, hwi, ← inInterval_iff hs, ← inInterval_iff hs]
  have hc : digitize false f.splits (some ((2 * j : ℕ) : ℚ)) = digitize false f.splits (some ((2 * j + 1 : ℕ) : ℚ)) := by
    unfold digitize
    refine List.countP_congr fun s hs' => ?_
    obtain ⟨m, rfl⟩ := heven s hs'
    simp only [Bool.false_eq_true, if_false, decide_eq_true_eq]
    have e1 : (((2 * m : ℤ) : ℚ) ≤ ((2 * j : ℕ) : ℚ)) ↔ 2 * m ≤ ((2 * j : ℕ) : ℤ) := by rw [← Int.cast_natCast (R := ℚ), Int.cast_le]
    have e2 : (((2 * m : ℤ) : ℚ) ≤ ((2 * j + 1 : ℕ) : ℚ)) ↔ 2 * m ≤ ((2 * j + 1 : ℕ) : ℤ) := by rw [← Int.cast_natCast (R := ℚ), Int.cast_le]
    rw [e1, e2]
    push_cast
    omega
  rw [hc]
  have m1 : v ∈ f.categories := by rw [← hv]; exact List.getElem_mem _
  have m2 : w ∈ f.categories := by rw [← hw]; exact List.getElem_mem _
  simp only [m1, m2, true_and]

/-- C118, finding: with `split_digits=0` a variable with two categories gets a single bin (the divergences "iv" and "js"): the cut 1/2 between them becomes 0. -/
theorem C118_split_digits_two (hd : p.splitDigits = some 0) (hdiv : p.divergence = .iv ∨ p.divergence = .js)
    (h : fitCatRounded p cutoff sc rank (fun _ => [1 / 2]) solver recs = .ok f) : f.splits = [] := by
  have hround : p.rounded npRound = npRound 0 := by unfold Params.rounded; rw [hd]
  have hnp : npRound 0 (1 / 2) = 0 := by decide +kernel
  unfold fitCatRounded at h
  rw [hround] at h
  simp only [List.map_cons, List.map_nil, hnp] at h
  have hk : p.divergence.keepsPure = false := by rcases hdiv with hdiv | hdiv <;> rw [hdiv] <;> rfl
  obtain ⟨-, -, hfit⟩ := fitCatParams_ok h
  rw [hk] at hfit
  unfold fitCategorical at hfit
  simp only [bind, Except.bind] at hfit
  cases hco : cutoffOthers (cutoff.map XQ.value) (splitData sc {} recs).clean with
  | error e => simp [hco] at hfit
  | ok others =>
    simp only [hco] at hfit
    split at hfit
    · cases hfit
    rename_i r hr
    simp only [pure, Except.pure, Except.ok.injEq] at hfit
    subst hfit
    simp only
    unfold fitCore at hr
    simp only [bind, Except.bind] at hr
    split at hr
    · cases hr
    rename_i pb hpb
    simp only [pure, Except.pure, Except.ok.injEq] at hr
    have hps : pb.splits = [] := by
      obtain ⟨hsub, h1 | ⟨h0, h1, h2, h3⟩⟩ := computePrebins_spec _ _ _ _ _ hpb
      · exact h1.1
      exfalso
      have he : pb.splits = [0] := by
        rcases List.sublist_singleton.1 hsub with h | h
        · exact absurd h h0
        · exact h
      have h3 := h3 rfl
      rw [h1, h2, he] at h3
      have hz : ∀ (l : List (Rec κ)) (cats : List κ) (e : Bool), (prebinCounts false 2 [(0 : ℚ)] (l.map (Rec.encode cats)) e).getD 0 0 = 0 ∨
          ∃ r ∈ l, r.x = none := by
        intro l cats e
        by_cases hx : ∃ r ∈ l, r.x = none
        · exact Or.inr hx
        left
        push Not at hx
        have : ((l.map (Rec.encode cats)).filter fun r => r.isEvent == e && digitize false [(0 : ℚ)] r.x == 0) = [] := by
          rw [List.filter_eq_nil_iff]
          intro r hr
          obtain ⟨r0, hr0, rfl⟩ := List.mem_map.1 hr
          obtain ⟨c, hc⟩ := Option.ne_none_iff_exists'.1 (hx r0 hr0)
          simp [Rec.encode, hc, digitize]
        simp [prebinCounts, this, truncWeight]
      have hknown : ∀ r ∈ (splitData sc {} recs).clean.filter fun r => !r.inCats others, r.x ≠ none := fun r hr =>
        (clean_known (List.mem_of_mem_filter hr)).2.1
      have hz' := fun e => (hz _ (rank ((splitData sc {} recs).clean.filter fun r => !r.inCats others)) e).resolve_right
        (fun ⟨r, hr, hn⟩ => hknown r hr hn)
      have hl : ∀ e, 0 < (prebinCounts false 2 [(0 : ℚ)] (((splitData sc {} recs).clean.filter fun r => !r.inCats others).map
          (Rec.encode (rank ((splitData sc {} recs).clean.filter fun r => !r.inCats others)))) e).length := by
        intro e; rw [length_prebinCounts]; norm_num
      have hany : (pureMask (prebinCounts false 2 [(0 : ℚ)] (((splitData sc {} recs).clean.filter fun r => !r.inCats others).map
          (Rec.encode (rank ((splitData sc {} recs).clean.filter fun r => !r.inCats others)))) false)
          (prebinCounts false 2 [(0 : ℚ)] (((splitData sc {} recs).clean.filter fun r => !r.inCats others).map
          (Rec.encode (rank ((splitData sc {} recs).clean.filter fun r => !r.inCats others)))) true)).any id = true := by
        have z0 := hz' false
        have z1 := hz' true
        rw [List.getD_eq_getElem _ _ (hl _)] at z0 z1
        rw [List.any_eq_true]
        refine ⟨true, List.mem_iff_getElem.2 ⟨0, ?_, ?_⟩, rfl⟩
        · simp only [pureMask, List.length_map, List.length_zip]; have := hl false; have := hl true; omega
        · simp [pureMask, z0, z1]
      have e2 : prebinNumber false [(0 : ℚ)] = 2 := rfl
      rw [show ({ keepPure := false, catUser := false } : PrebinCfg).catUser = false from rfl, e2] at h3
      rw [h3] at hany
      cases hany
    subst hr
    simp only [fitOptimizer, hps]
    split_ifs
    · rfl
    · contradiction
    · simp [select]

/-- Non-vacuity: two categories with the event rates 1/3 and 1/2 and the pre-binning cut 1/2 between them are separated without `split_digits` and form a
single bin with `split_digits=0`. -/
example (hull : List ℚ → Option ℚ) (pv : ℕ → ℕ → ℕ → ℕ → ℝ) :
    ∃ solver, Respects (fiveParams.forCategorical.cfg hull false pv fiveRecs.length) solver ∧
      (∃ f : CatFitted ℕ, fitCatRounded fiveParams none .none rankImpl (fun _ => [1 / 2]) solver fiveRecs = .ok f ∧ f.bins = [[0], [1]]) ∧
      ∃ f : CatFitted ℕ, fitCatRounded { fiveParams with splitDigits := some 0 } none .none rankImpl (fun _ => [1 / 2]) solver fiveRecs = .ok f ∧
        f.bins = [[0, 1]] := by
  obtain ⟨c, hc, hr, hsol⟩ := fiveSolve hull pv
  have hc' : c = fiveParams.forCategorical.cfg hull false pv fiveRecs.length := hc
  have hcl : (splitData .none {} fiveRecs).clean = fiveRecs := by decide +kernel
  have hco : cutoffOthers none fiveRecs = .ok [] := rfl
  have hrk : rankImpl (fiveRecs.filter fun r => !r.inCats []) = [0, 1] := by decide +kernel
  have h1 : prebinCounts false 2 [(1 / 2 : ℚ)] ((fiveRecs.filter fun r => !r.inCats []).map (Rec.encode [0, 1])) false = [2, 1] := by decide +kernel
  have h2 : prebinCounts false 2 [(1 / 2 : ℚ)] ((fiveRecs.filter fun r => !r.inCats []).map (Rec.encode [0, 1])) true = [1, 1] := by decide +kernel
  have h0 : computePrebins {} ((fiveRecs.filter fun r => !r.inCats []).map (Rec.encode [0, 1])) {} [(1 / 2 : ℚ)] = .ok ⟨{}, [1 / 2], [2, 1], [1, 1]⟩ := by
    rw [computePrebins]
    simp only [prebinNumber, Bool.false_eq_true, if_false, List.length_cons, List.length_nil, Nat.zero_add, Nat.reduceAdd, h1, h2]
    simp [pureMask]
  have h3 : prebinCounts false 2 [(0 : ℚ)] ((fiveRecs.filter fun r => !r.inCats []).map (Rec.encode [0, 1])) false = [0, 3] := by decide +kernel
  have h4 : prebinCounts false 2 [(0 : ℚ)] ((fiveRecs.filter fun r => !r.inCats []).map (Rec.encode [0, 1])) true = [0, 2] := by decide +kernel
  have h5 : ∃ pb, computePrebins {} ((fiveRecs.filter fun r => !r.inCats []).map (Rec.encode [0, 1])) {} [(0 : ℚ)] = .ok pb ∧ pb.splits = [] ∧ pb.nonevent = [] ∧ pb.event = [] := by
    rw [computePrebins]
    simp only [prebinNumber]
    simp [h3, h4, pureMask, maskSplits, select]
    rw [computePrebins]
    simp
  obtain ⟨pb, h5, h6, h7, h8⟩ := h5
  have hs : ∀ e, specialCounts .none (splitData .none {} fiveRecs).special e = [0] := by decide +kernel
  have hm : ∀ e, truncWeight ((splitData .none {} fiveRecs).missing.filter fun q => q.isEvent == e) = 0 := by decide +kernel
  have hfo : fitOptimizer false (keepAll c) [(1 / 2 : ℚ)] [2, 1] [1, 1] = ⟨"FEASIBLE", [1 / 2], [true, true]⟩ := by
    have : ([2, 1] : List ℕ).length = 2 := rfl
    rw [fitOptimizer, this, hsol]; rfl
  have hk : fiveParams.divergence.keepsPure = false := rfl
  have hk2 : ({ fiveParams with splitDigits := some 0 } : Params).divergence.keepsPure = false := rfl
  have hnp : npRound 0 (1 / 2) = 0 := by decide +kernel
  have hacc : checkParameters { fiveParams with splitDigits := some 0 } = .ok () := by decide +kernel
  have r1 : fiveParams.rounded npRound = id := rfl
  have r2 : ({ fiveParams with splitDigits := some 0 } : Params).rounded npRound = npRound 0 := rfl
  refine ⟨keepAll c, hc' ▸ hr, ⟨⟨"FEASIBLE", [1 / 2], [0, 1], [], [2, 1, 0, 0], [1, 1, 0, 0]⟩, ?_, by decide +kernel⟩, ?_⟩
  · unfold fitCatRounded fitCatParams
    rw [fiveAccepted, r1]
    simp only [badCutoff, Option.any_none, Bool.false_eq_true, if_false, Option.map_none, hk, fitCategorical, hcl, hco, hrk, fitCore, List.map_id, h0, bind, Except.bind, pure,
      Except.pure, hs, hm, hfo]
    rfl
  · unfold fitCatRounded fitCatParams
    rw [hacc, r2]
    simp only [badCutoff, Option.any_none, Bool.false_eq_true, if_false, Option.map_none, hk2, fitCategorical, hcl, hco, hrk, fitCore, List.map_cons, List.map_nil, hnp, h5, bind, Except.bind, pure,
      Except.pure, hs, hm, h6, h7, h8]
    have hfo2 : fitOptimizer false (keepAll c) ([] : List ℚ) [] [] = ⟨"OPTIMAL", [], []⟩ := rfl
    exact ⟨_, rfl, by rw [hfo2]; decide +kernel⟩

end OptBinning
