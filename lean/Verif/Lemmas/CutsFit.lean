import Verif.Lemmas.Cuts
import Verif.Props.Fit

/-!
# The groupings among which a fit chooses (C103)
-/
namespace OptBinning
open Finset Spec

variable {α : Type*} [LinearOrder α]

theorem clean_known {sc : SpecialCodes α} {so : SplitOpts α} {recs : List (Rec α)} {r : Rec α} (hr : r ∈ (splitData sc so recs).clean) :
    r ∈ recs ∧ r.x ≠ none ∧ r.y ≠ none ∧ ¬ IsSpecialValue sc r.x := by
  have hf : ∀ l : List (Rec α), (fixBounds so l).Sublist l := by
    intro l
    unfold fixBounds
    cases so.fixLb <;> cases so.fixUb <;> simp [List.filter_sublist]
  have hsub : (splitData sc so recs).clean.Sublist (splitData sc {} recs).clean := by
    simp only [splitData]
    refine (hf _).trans ?_
    cases so.outlier with
    | none => exact List.Sublist.refl _
    | some det => exact select_sublist _ _
  exact (C01_groups sc recs r).1.1 (hsub.subset hr)

theorem prebinCounts_cut {recs : List (Rec α)} {ps : List α} (hclean : ∀ r ∈ recs, r.x ≠ none ∧ r.y ≠ none) (hw : WholeWeights recs)
    (hsort : ps.Pairwise (· ≤ ·)) (event : Bool) {k : ℕ} (hk : k ≤ ps.length) :
    (((prebinCounts false (ps.length + 1) ps recs event).getD k 0 : ℕ) : ℚ) = cutWeight recs ps event k := by
  classical
  rw [prebinCounts_getD _ _ _ _ _ (Nat.lt_succ_of_le hk), truncWeight_whole (wholeWeights_filter hw _)]
  unfold cutWeight weight
  congr 2
  refine List.filter_congr fun r hr => ?_
  have h2 := isEvent_beq r (hclean r hr).2 event
  rw [Bool.eq_iff_iff]
  simp only [Bool.and_eq_true, h2, beq_iff_eq, decide_eq_true_eq]
  refine and_congr Iff.rfl ?_
  cases hxv : r.x with
  | none => exact absurd hxv (hclean r hr).1
  | some v => rw [inInterval_iff hsort]; simp

theorem pureMask_cut {recs : List (Rec α)} {ps : List α} (hclean : ∀ r ∈ recs, r.x ≠ none ∧ r.y ≠ none) (hw : WholeWeights recs)
    (hsort : ps.Pairwise (· ≤ ·)) :
    (pureMask (prebinCounts false (ps.length + 1) ps recs false) (prebinCounts false (ps.length + 1) ps recs true)).any id = false ↔
      CutsMixed recs ps := by
  have key : (pureMask (prebinCounts false (ps.length + 1) ps recs false) (prebinCounts false (ps.length + 1) ps recs true)).any id = false ↔
      ∀ k < ps.length + 1, (prebinCounts false (ps.length + 1) ps recs false).getD k 0 ≠ 0 ∧ (prebinCounts false (ps.length + 1) ps recs true).getD k 0 ≠ 0 := by
    have h1 : (prebinCounts false (ps.length + 1) ps recs false).length = ps.length + 1 := length_prebinCounts ..
    have h2 : (prebinCounts false (ps.length + 1) ps recs true).length = ps.length + 1 := length_prebinCounts ..
    generalize prebinCounts false (ps.length + 1) ps recs false = a at *
    generalize prebinCounts false (ps.length + 1) ps recs true = b at *
    rw [List.any_eq_false]
    constructor
    · intro h k hk
      have := h ((a.getD k 0 == 0) || (b.getD k 0 == 0)) (by
        unfold pureMask
        rw [List.mem_map]
        refine ⟨(a.getD k 0, b.getD k 0), ?_, rfl⟩
        rw [List.mem_iff_getElem]
        refine ⟨k, by simp; omega, ?_⟩
        simp only [List.getElem_zip, List.getD_eq_getElem?_getD]
        rw [List.getElem?_eq_getElem (by omega), List.getElem?_eq_getElem (by omega)]
        rfl)
      simpa [not_or] using this
    · intro h x hx
      unfold pureMask at hx
      rw [List.mem_map] at hx
      obtain ⟨p, hp, rfl⟩ := hx
      rw [List.mem_iff_getElem] at hp
      obtain ⟨k, hk, rfl⟩ := hp
      simp only [List.length_zip] at hk
      have := h k (by omega)
      simp only [List.getD_eq_getElem?_getD] at this
      rw [List.getElem?_eq_getElem (by omega), List.getElem?_eq_getElem (by omega)] at this
      simp only [List.getElem_zip]
      simpa [not_or] using this
  rw [key]
  unfold CutsMixed
  constructor
  · intro h k hk event
    rw [← prebinCounts_cut hclean hw hsort event hk]
    have := h k (by omega)
    cases event
    · exact_mod_cast Nat.pos_of_ne_zero this.1
    · exact_mod_cast Nat.pos_of_ne_zero this.2
  · intro h k hk
    have h1 := h k (by omega) false
    have h2 := h k (by omega) true
    rw [← prebinCounts_cut hclean hw hsort _ (by omega)] at h1 h2
    constructor
    · intro h0; rw [h0] at h1; simp at h1
    · intro h0; rw [h0] at h2; simp at h2

theorem computePrebins_mixed {cfg : PrebinCfg} (hcat : cfg.catUser = false) {recs : List (Rec α)} {ps : List α}
    (hclean : ∀ r ∈ recs, r.x ≠ none ∧ r.y ≠ none) (hw : WholeWeights recs)
    (hsort : ps.Pairwise (· ≤ ·)) (hm : CutsMixed recs ps) (st : PrebinState α) {pb : Prebins α} (h : computePrebins cfg recs st ps = .ok pb) :
    pb.splits = ps := by
  rw [computePrebins] at h
  simp only at h
  split_ifs at h with h0 h1 h2
  · cases h; rfl
  · cases h; rfl
  · exfalso
    have := (pureMask_cut hclean hw hsort).2 hm
    rw [hcat] at h1
    simp only [prebinNumber, Bool.false_eq_true, if_false] at h1
    rw [this] at h1
    cases h1
  · cases h; rfl

/-- A fit whose divergence excludes pure pre-bins chooses among the sublists of a list `ps` of splits. -/
theorem fit_cuts_masks {cfg : PrebinCfg} {sc : SpecialCodes α} {so : SplitOpts α} {prebin : List (Rec α) → List α} {solver : Solver}
    {recs : List (Rec α)} {f : Fitted α} (hw : WholeWeights recs)
    (hsolver : ∀ nev ev : List ℕ, 0 < nev.length → (solve nev.length (solver nev ev)).2.getLast? = some true)
    (hsort : ∀ l, (prebin l).Pairwise (· ≤ ·)) (hk : cfg.keepPure = false)
    (h : fitNumerical cfg sc so prebin solver recs = .ok f) :
    ∃ ps : List α, (∃ pb, computePrebins { cfg with catUser := false } (splitData sc so recs).clean {} (prebin (splitData sc so recs).clean) = .ok pb ∧
        pb.splits = ps) ∧ f.splits.Sublist ps ∧ ps.Sublist (prebin (splitData sc so recs).clean) ∧
      (CutsMixed (splitData sc so recs).clean (prebin (splitData sc so recs).clean) → ps = prebin (splitData sc so recs).clean) ∧
      (ps ≠ [] → CutsMixed (splitData sc so recs).clean ps) ∧
      (ps = [] ∨ ∃ nev ev : List ℕ, ev.length = nev.length ∧ nev.length = ps.length + 1 ∧
        (∀ k < nev.length, 0 < nev.getD k 0 ∧ 0 < ev.getD k 0) ∧
        f.status = (solve nev.length (solver nev ev)).1 ∧
        (∃ idx, CutBins (splitData sc so recs).clean f.splits nev.length (solOf (solve nev.length (solver nev ev)).2)
          (fun k => ((nev.getD k 0 : ℕ) : ℤ)) (fun k => ((ev.getD k 0 : ℕ) : ℤ)) idx) ∧
        ∀ cs : List α, cs.Sublist ps → ∃ (m : List Bool) (idx : _), m.length = ps.length ∧ select ps m = cs ∧
          CutBins (splitData sc so recs).clean cs nev.length (solOf (m ++ [true]))
          (fun k => ((nev.getD k 0 : ℕ) : ℤ)) (fun k => ((ev.getD k 0 : ℕ) : ℤ)) idx) := by
  have hclean : ∀ r ∈ (splitData sc so recs).clean, r.x ≠ none ∧ r.y ≠ none := fun r hr => by
    have := clean_known hr; exact ⟨this.2.1, this.2.2.1⟩
  have hwc : WholeWeights (splitData sc so recs).clean := fun r hr => hw r (clean_known hr).1
  unfold fitNumerical at h
  unfold fitFrom fitCore at h
  simp only at h
  cases hpb : computePrebins { cfg with catUser := false } (splitData sc so recs).clean {} (prebin (splitData sc so recs).clean) with
  | error e => simp [hpb, bind, Except.bind] at h
  | ok pb =>
    simp only [hpb, bind, Except.bind, pure, Except.pure, Except.ok.injEq] at h
    obtain ⟨hsub, hcase⟩ := computePrebins_spec _ _ _ _ _ hpb
    have hps : pb.splits.Pairwise (· ≤ ·) := (hsort _).sublist hsub
    have hmix := fun hm => computePrebins_mixed (cfg := { cfg with catUser := false }) rfl hclean hwc (hsort _) hm {} hpb
    rcases hcase with ⟨h1, h2, h3⟩ | ⟨h1, h2, h3, h4⟩
    · have hr : fitOptimizer false solver pb.splits pb.nonevent pb.event = ⟨"OPTIMAL", [], []⟩ := by
        simp [fitOptimizer, h1, h2]
      rw [hr] at h
      subst h
      exact ⟨pb.splits, ⟨pb, rfl, rfl⟩, by simp, hsub, hmix, fun h => absurd h1 h, Or.inl h1⟩
    · simp only [prebinNumber, Bool.false_eq_true, if_false] at h2 h3
      have h4' := h4 hk
      have hlen : pb.nonevent.length = pb.splits.length + 1 := by rw [h2, length_prebinCounts]
      have hlen' : pb.event.length = pb.splits.length + 1 := by rw [h3, length_prebinCounts]
      have hpos : 0 < pb.splits.length := List.length_pos_iff.2 h1
      have hn2 : ¬ pb.nonevent.length ≤ 1 := by omega
      have hlast := hsolver pb.nonevent pb.event (by omega)
      have hsl := solve_length pb.nonevent.length (solver pb.nonevent pb.event)
      have hr : fitOptimizer false solver pb.splits pb.nonevent pb.event =
          ⟨(solve pb.nonevent.length (solver pb.nonevent pb.event)).1,
            select pb.splits (solve pb.nonevent.length (solver pb.nonevent pb.event)).2.dropLast,
            (solve pb.nonevent.length (solver pb.nonevent pb.event)).2⟩ := by
        simp [fitOptimizer, hn2]
      rw [hr] at h
      rw [h2, h3] at h4'
      have hcm := (pureMask_cut hclean hwc hps).1 h4'
      subst h
      refine ⟨pb.splits, ⟨pb, rfl, rfl⟩, select_sublist _ _, hsub, hmix, fun _ => hcm, Or.inr ⟨pb.nonevent, pb.event, by omega, hlen, ?_, rfl, ?_, ?_⟩⟩
      · intro k hk
        have a := hcm k (by omega) false
        have b := hcm k (by omega) true
        rw [← prebinCounts_cut hclean hwc hps _ (by omega)] at a b
        rw [h2, h3]
        exact ⟨by exact_mod_cast a, by exact_mod_cast b⟩
      · have hc := cutBins hclean hwc hps (R := (solve pb.nonevent.length (solver pb.nonevent pb.event)).2) (by omega) hlast hlen
        rw [← h2, ← h3] at hc
        exact ⟨_, hc⟩
      · intro cs hcs
        obtain ⟨m, hm1, hm2⟩ := sublist_mask hcs
        have hc := cutBins hclean hwc hps (R := m ++ [true]) (by simp [hm1]) (getLast_append_true m) hlen
        rw [List.dropLast_concat, hm2, ← h2, ← h3] at hc
        exact ⟨m, _, hm1, hm2, hc⟩

/-- A fit whose divergence excludes pure pre-bins chooses among the sublists of a list `ps` of splits. -/
theorem fit_cuts {cfg : PrebinCfg} {sc : SpecialCodes α} {so : SplitOpts α} {prebin : List (Rec α) → List α} {solver : Solver}
    {recs : List (Rec α)} {f : Fitted α} (hw : WholeWeights recs)
    (hsolver : ∀ nev ev : List ℕ, 0 < nev.length → (solve nev.length (solver nev ev)).2.getLast? = some true)
    (hsort : ∀ l, (prebin l).Pairwise (· ≤ ·)) (hk : cfg.keepPure = false)
    (h : fitNumerical cfg sc so prebin solver recs = .ok f) :
    ∃ ps : List α, f.splits.Sublist ps ∧ ps.Sublist (prebin (splitData sc so recs).clean) ∧
      (CutsMixed (splitData sc so recs).clean (prebin (splitData sc so recs).clean) → ps = prebin (splitData sc so recs).clean) ∧
      (ps ≠ [] → CutsMixed (splitData sc so recs).clean ps) ∧
      (ps = [] ∨ ∃ nev ev : List ℕ, ev.length = nev.length ∧ nev.length = ps.length + 1 ∧
        (∀ k < nev.length, 0 < nev.getD k 0 ∧ 0 < ev.getD k 0) ∧
        f.status = (solve nev.length (solver nev ev)).1 ∧
        (∃ idx, CutBins (splitData sc so recs).clean f.splits nev.length (solOf (solve nev.length (solver nev ev)).2)
          (fun k => ((nev.getD k 0 : ℕ) : ℤ)) (fun k => ((ev.getD k 0 : ℕ) : ℤ)) idx) ∧
        ∀ cs : List α, cs.Sublist ps → ∃ sol idx, CutBins (splitData sc so recs).clean cs nev.length sol
          (fun k => ((nev.getD k 0 : ℕ) : ℤ)) (fun k => ((ev.getD k 0 : ℕ) : ℤ)) idx) := by
  obtain ⟨ps, -, h1, h2, h3, h4, h5⟩ := fit_cuts_masks hw hsolver hsort hk h
  refine ⟨ps, h1, h2, h3, h4, h5.imp id ?_⟩
  rintro ⟨nev, ev, l1, l2, l3, l4, l5, l6⟩
  exact ⟨nev, ev, l1, l2, l3, l4, l5, fun cs hcs => by obtain ⟨m, idx, -, -, hc⟩ := l6 cs hcs; exact ⟨_, idx, hc⟩⟩

end OptBinning
