import Verif.Props.Stream

/-! # C70–C72: when `solve` succeeds, what the options guarantee, and histories -/
namespace OptBinning
open Finset
open Spec (usedValues specialCount missingCount classCount IsSpecialValue numLe numLt HasRankWithin AtLeast AtMost)
variable {α : Type*} [LinearOrder α]

theorem streamPrebins_error {keepPure : Bool} {e ne : GK α} {splits : List α} {m : String}
    (h : streamPrebins keepPure e ne splits = .error m) : m = if keepPure then "ValueError" else "IndexError" := by
  induction hn : splits.length using Nat.strong_induction_on generalizing splits with
  | _ n ih =>
    rw [streamPrebins] at h
    by_cases h1 : (pureMask (ne.counts splits) (e.counts splits)).any id = true
    · rw [dif_pos h1] at h
      by_cases h2 : keepPure = true
      · rw [if_pos h2] at h
        split_ifs at h with h3
        rw [if_pos h2]
        simpa using h.symm
      · rw [if_neg h2] at h
        by_cases h3 : splits.length = 0
        · rw [dif_pos h3] at h; rw [if_neg h2]; simpa using h.symm
        · rw [dif_neg h3] at h
          have hm := maskSplits_any (c := false) (rm := pureMask (ne.counts splits) (e.counts splits)) (n := splits.length) (by omega)
            (by simp [pureMask, GK.counts, GK.bins]) h1
          exact ih _ (hn ▸ length_select_lt hm.1 hm.2) h rfl
    · rw [dif_neg h1] at h; simp at h

theorem accumBins_pos (sol : List Bool) (cs : List ℕ) (hl : sol.length = cs.length) (hpos : ∀ x ∈ cs, 0 < x) (acc : ℕ) :
    ∀ x ∈ accumBins sol cs acc, 0 < x := by
  induction sol generalizing cs acc with
  | nil => simp [accumBins]
  | cons b sol ih =>
    cases cs with
    | nil => simp at hl
    | cons d cs =>
      have hd := hpos d (by simp)
      have hcs : ∀ x ∈ cs, 0 < x := fun x hx => hpos x (List.mem_cons_of_mem _ hx)
      have hl' : sol.length = cs.length := by simpa using hl
      cases b with
      | true =>
        simp only [accumBins, List.mem_cons, forall_eq_or_imp]
        exact ⟨by omega, ih cs hl' hcs 0⟩
      | false => simp only [accumBins]; exact ih cs hl' hcs (acc + d)

section
variable {cfg : StreamCfg α} {c : SolverCfg} {solver : Solver} {ops : List (StreamOp α)} {f : StreamFit α}

/-- The outcome of `solve` on a history. -/
theorem solve_outcome (heps : 0 < cfg.eps) (hm : 2 ≤ cfg.maxPrebins) (solver : Solver) (ops : List (StreamOp α)) :
    (∃ E N cand, Filled cfg.eps E (usedValues cfg.sc true (streamed ops)) ∧ Filled cfg.eps N (usedValues cfg.sc false (streamed ops)) ∧
      usedValues cfg.sc true (streamed ops) ++ usedValues cfg.sc false (streamed ops) ≠ [] ∧ cand ≠ [] ∧
      match streamPrebins cfg.keepPure E N cand with
      | .ok _ => ∃ f, ((Stream.run cfg ops).solve cfg solver).1 = .ok f
      | .error m => ((Stream.run cfg ops).solve cfg solver).1 = .error m) ∨
    (usedValues cfg.sc true (streamed ops) = [] ∧ usedValues cfg.sc false (streamed ops) = [] ∧
      ((Stream.run cfg ops).solve cfg solver).1 =
        .error (if (Stream.run cfg ops).nAdd = 0 then "NotFittedError" else "ValueError")) := by
  obtain ⟨h, hadd⟩ := holding_run cfg heps ops
  generalize Stream.run cfg ops = s at *
  unfold Stream.solve
  by_cases h0 : s.nAdd = 0
  · right
    have : streamed ops = [] := by
      have h1 := hadd.1 h0
      unfold streamed
      rw [List.flatMap_eq_nil_iff]
      intro o ho
      cases o with
      | add recs => exact absurd ho (h1 recs)
      | solve => rfl
    rw [this, if_pos h0, if_pos h0]
    exact ⟨rfl, rfl, rfl⟩
  rw [if_neg h0, if_neg h0]
  obtain ⟨all, ne', mops, hm', hne', hall, hcol⟩ := mergeSketches_ok heps h
  have hF : Filled cfg.eps ne' (usedValues cfg.sc false (streamed ops)) := by
    rcases hne' with rfl | rfl
    · exact h.ne
    · exact h.ne.compress
  rw [hm']
  simp only
  by_cases hne : collectedValues mops = []
  · right
    have hc : all.count = 0 := by
      obtain ⟨-, E, -, -, hC⟩ := collects_run cfg.eps heps mops
      rw [hall, hC.count, hne]; rfl
    rw [hcol, List.append_eq_nil_iff] at hne
    refine ⟨hne.1, hne.2, ?_⟩
    rw [splits_empty hc hm]
  · left
    obtain ⟨cand, hq, hlen, -⟩ := splits_spec heps mops hne cfg.maxPrebins
    rw [← hall] at hq
    refine ⟨s.e, ne', cand, h.e, hF, hcol ▸ hne, fun hc => by rw [hc] at hlen; simp at hlen; omega, ?_⟩
    rw [hq]
    simp only
    cases hp : streamPrebins cfg.keepPure s.e ne' cand with
    | error m => rfl
    | ok pb => exact ⟨_, rfl⟩

/-! ## C70 -/

/-- C70: `solve` succeeds exactly if both classes have a used record. -/
theorem C70_solvable (heps : 0 < cfg.eps) (hm : 2 ≤ cfg.maxPrebins) :
    (∃ f, ((Stream.run cfg ops).solve cfg solver).1 = .ok f) ↔
      usedValues cfg.sc true (streamed ops) ≠ [] ∧ usedValues cfg.sc false (streamed ops) ≠ [] := by
  rcases solve_outcome heps hm solver ops with ⟨E, N, cand, hE, hN, hne, hc, hmatch⟩ | ⟨h1, h2, h3⟩
  · have hiff : (∃ pb, streamPrebins cfg.keepPure E N cand = .ok pb) ↔
        usedValues cfg.sc true (streamed ops) ≠ [] ∧ usedValues cfg.sc false (streamed ops) ≠ [] := by
      cases cfg.keepPure with
      | true => exact streamPrebins_keep heps hE hN cand hc
      | false => exact streamPrebins_ok heps hE hN cand
    rw [← hiff]
    cases hp : streamPrebins cfg.keepPure E N cand with
    | ok pb => rw [hp] at hmatch; exact ⟨fun _ => ⟨pb, rfl⟩, fun _ => hmatch⟩
    | error m => rw [hp] at hmatch; simp [hmatch]
  · simp [h1, h3]

/-- C70: the errors.  Without data `NotFittedError`, without used records `ValueError` from the sketch, and with used records of one class only an
`IndexError` from the refinement ("iv", "js") or a `ValueError` from the divergence ("hellinger", "triangular"). -/
theorem C70_errors (heps : 0 < cfg.eps) (hm : 2 ≤ cfg.maxPrebins) {m : String}
    (h : ((Stream.run cfg ops).solve cfg solver).1 = .error m) :
    ((∀ recs, StreamOp.add recs ∉ ops) → m = "NotFittedError") ∧
    ((∃ recs, StreamOp.add recs ∈ ops) → (∀ ev, usedValues cfg.sc ev (streamed ops) = []) → m = "ValueError") ∧
    ((∃ ev, usedValues cfg.sc ev (streamed ops) ≠ []) → m = if cfg.keepPure then "ValueError" else "IndexError") := by
  have hadd := (holding_run cfg heps ops).2
  rcases solve_outcome heps hm solver ops with ⟨E, N, cand, hE, hN, hne, -, hmatch⟩ | ⟨h1, h2, h3⟩
  · have hn : ¬ ∀ ev, usedValues cfg.sc ev (streamed ops) = [] := by
      intro hc; exact hne (by rw [hc, hc]; rfl)
    have hn0 : ¬ ∀ recs, StreamOp.add recs ∉ ops := by
      intro hc
      apply hne
      have : streamed ops = [] := by
        unfold streamed
        rw [List.flatMap_eq_nil_iff]
        intro o ho
        cases o with
        | add recs => exact absurd ho (hc recs)
        | solve => rfl
      rw [this]; rfl
    refine ⟨fun hc => absurd hc hn0, fun _ hc => absurd hc hn, fun _ => ?_⟩
    cases hp : streamPrebins cfg.keepPure E N cand with
    | ok pb => rw [hp] at hmatch; obtain ⟨f, hf⟩ := hmatch; rw [hf] at h; simp at h
    | error m' =>
      rw [hp] at hmatch
      rw [hmatch] at h
      simp only [Except.error.injEq] at h
      rw [← h]; exact streamPrebins_error hp
  · rw [h3] at h
    simp only [Except.error.injEq] at h
    rw [← h]
    refine ⟨fun hc => if_pos (hadd.2 hc), fun ⟨recs, hc⟩ _ => if_neg fun h0 => hadd.1 h0 recs hc, ?_⟩
    rintro ⟨ev, hev⟩
    cases ev
    · exact absurd h2 hev
    · exact absurd h1 hev

/-- C70: with "iv" and "js" every regular row of the table contains records of both classes. -/
theorem C70_both_classes (heps : 0 < cfg.eps) (hm : 2 ≤ cfg.maxPrebins) (hsc : ¬ IsSpecialValue cfg.sc none) (hr : Respects c solver)
    (hk : cfg.keepPure = false) (hf : ((Stream.run cfg ops).solve cfg solver).1 = .ok f) (ev : Bool) :
    ∀ x ∈ f.table.regular ev, 0 < x := by
  have hboth := (C70_solvable (solver := solver) (ops := ops) heps hm).1 ⟨f, hf⟩
  obtain ⟨K, cand, pb, h1, h2, h3, h4, h5, h6, h7, h8, h9, h10⟩ :=
    solve_result heps hsc (holding_run cfg heps ops).1 (fun nev ev hn => hr.last nev ev hn) hf
  unfold Fitted.regular
  rcases h10 with ⟨-, -, hs, hc⟩ | ⟨hp, sol, s1, s2, s3, s4, s5⟩
  · rw [hs, hc ev]
    intro x hx
    simp only [List.length_nil, Nat.zero_add, List.take_succ_cons, List.take_zero, List.mem_singleton] at hx
    rw [hx, ← class_parts cfg.sc hsc ev]
    have : 0 < (usedValues cfg.sc ev (streamed ops)).length := by
      cases ev
      · exact List.length_pos_iff_ne_nil.2 hboth.2
      · exact List.length_pos_iff_ne_nil.2 hboth.1
    omega
  · have hlen : (accumBins sol ((K ev).counts pb) 0).length = f.table.splits.length + 1 := by
      rw [s4, accum_counts ((h1 ev).weighted heps) (h3.sublist h4) s1 s2, length_counts]
    rw [s5 ev, List.take_left' hlen]
    have hpos := h6 hk ev
    have hl : sol.length = ((K ev).counts pb).length := by rw [s1, length_counts]
    exact accumBins_pos _ _ hl hpos 0

/-- C70: with "iv" and "js" the splits are strictly increasing. -/
theorem C70_splits_distinct (heps : 0 < cfg.eps) (hm : 2 ≤ cfg.maxPrebins) (hsc : ¬ IsSpecialValue cfg.sc none) (hr : Respects c solver)
    (hk : cfg.keepPure = false) (hf : ((Stream.run cfg ops).solve cfg solver).1 = .ok f) : f.table.splits.Pairwise (· < ·) := by
  have hpos := C70_both_classes heps hm hsc hr hk hf true
  obtain ⟨K, cand, pb, h1, h2, h3, h4, h5, h6, h7, h8, h9, h10⟩ := solve_history heps hsc hr hf
  rcases h10 with ⟨-, -, hs, hc⟩ | ⟨hp, sol, s1, s2, s3, s4, s5⟩
  · rw [hs]; exact .nil
  · have hs : f.table.splits.Pairwise (· ≤ ·) := by rw [s4]; exact h3.sublist ((select_sublist _ _).trans h4)
    have hw := (h1 true).weighted heps
    have hreg : f.table.regular true = (K true).counts f.table.splits := by
      unfold Fitted.regular; rw [s5 true, List.take_left' (length_counts _ _)]
    rw [hreg] at hpos
    generalize f.table.splits = sp at *
    rw [List.pairwise_iff_getElem] at hs ⊢
    -- two neighbouring equal splits give an empty row
    have hstep : ∀ i (hi : i + 1 < sp.length), sp[i] < sp[i + 1] := by
      intro i hi
      refine lt_of_le_of_ne (hs i (i + 1) (by omega) hi (by omega)) fun heq => ?_
      have hz := counts_getD hw sp (i := i + 1) (by omega)
      have hg : 0 < ((K true).counts sp).getD (i + 1) 0 := by
        rw [List.getD_eq_getElem _ _ (by rw [length_counts]; omega)]
        exact hpos _ (List.getElem_mem _)
      rw [List.filter_eq_nil_iff.2] at hz
      · rw [List.map_nil, List.sum_nil] at hz
        have hz' : ((K true).counts sp).getD (i + 1) 0 = 0 := by exact_mod_cast hz
        omega
      · intro e _
        simp only [beq_iff_eq]
        intro hcnt
        -- exactly i+1 splits below e.value, so the split i is below and the split i+1 is not
        have hsorted : sp.Pairwise (· ≤ ·) := List.pairwise_iff_getElem.2 hs
        by_cases hlt : sp[i + 1] < e.value
        · have : i + 2 ≤ sp.countP fun s => decide (s < e.value) := by
            have : (sp.take (i + 2)).countP (fun s => decide (s < e.value)) = (sp.take (i + 2)).length := by
              rw [List.countP_eq_length]
              intro a ha
              obtain ⟨j, hj, rfl⟩ := List.getElem_of_mem ha
              simp only [List.length_take] at hj
              rw [List.getElem_take]
              simp only [decide_eq_true_eq]
              rcases Nat.lt_or_ge j (i + 1) with hji | hji
              · exact lt_of_le_of_lt (hs j (i + 1) (by omega) hi hji) hlt
              · have : j = i + 1 := by omega
                subst this; exact hlt
            have h2 := (List.take_sublist (i + 2) sp).countP_le (p := fun s => decide (s < e.value))
            rw [this] at h2
            simp only [List.length_take] at h2
            omega
          omega
        · have hz2 : (sp.drop i).countP (fun s => decide (s < e.value)) = 0 := by
            rw [List.countP_eq_zero]
            intro a ha
            obtain ⟨j, hj, rfl⟩ := List.getElem_of_mem ha
            simp only [List.length_drop] at hj
            rw [List.getElem_drop]
            simp only [decide_eq_true_eq, not_lt]
            rw [← heq, not_lt] at hlt
            rcases Nat.eq_zero_or_pos j with rfl | hj0
            · simpa using hlt
            · exact hlt.trans (hs i (i + j) (by omega) (by omega) (by omega))
          have h3 : sp.countP (fun s => decide (s < e.value)) = (sp.take i).countP (fun s => decide (s < e.value)) := by
            conv_lhs => rw [← List.take_append_drop i sp, List.countP_append, hz2, Nat.add_zero]
          have h4 := List.countP_le_length (p := fun s => decide (s < e.value)) (l := sp.take i)
          simp only [List.length_take] at h4
          omega
    intro i j hi hj hij
    induction j, hij using Nat.le_induction with
    | base => exact hstep i hj
    | succ j hle ih => exact (ih (by omega)).trans (hstep j hj)

end
end OptBinning
