import Verif.Model.Scenarios
import Verif.Lemmas.ScenarioSolver
import Verif.Lemmas.Multiclass

/-! # The fit path of the scenario-based binning -/
set_option linter.unusedSectionVars false
set_option linter.unusedSimpArgs false
namespace OptBinning
open Spec Finset

variable {α κ : Type*} [LinearOrder α]

theorem computePrebinsS_spec (clean : List (Scen α)) (st : ScenState α) (splits : List α) (pb : PrebinsM α)
    (h : computePrebinsS clean st splits = .ok pb) :
    pb.splits.Sublist splits ∧
    ((pb.splits = [] ∧ pb.nb = 0 ∧ pb.nonevent = [] ∧ pb.event = []) ∨
     (pb.splits ≠ [] ∧ pb.nb = pb.splits.length + 1 ∧ pb.nonevent = clean.map (prebinNonevent pb.splits) ∧
      pb.event = clean.map (prebinEventS pb.splits) ∧
      ∀ i ≤ pb.splits.length, ∀ recs ∈ clean, 0 < countClass false (inPrebin pb.splits recs i) ∧
        0 < countRest false (inPrebin pb.splits recs i))) := by
  induction hn : splits.length using Nat.strong_induction_on generalizing splits st with
  | _ n ih =>
    rw [computePrebinsS] at h
    simp only at h
    by_cases h0 : splits.length = 0
    · rw [dif_pos h0] at h
      cases h
      exact ⟨List.Sublist.refl _, Or.inl ⟨List.length_eq_zero_iff.1 h0, rfl, rfl, rfl⟩⟩
    rw [dif_neg h0] at h
    by_cases h1 : (pureMaskM (splits.length + 1) (clean.map (prebinNonevent splits))
        (clean.map (prebinEventS splits))).any id = true
    · rw [dif_pos h1] at h
      have hm := maskSplits_any (c := false) (n := splits.length) (by omega) (by simp [pureMaskM]) h1
      have hlt := length_select_lt hm.1 hm.2
      have : ∃ st', computePrebinsS clean st' (select splits ((maskSplits false (pureMaskM (splits.length + 1)
          (clean.map (prebinNonevent splits)) (clean.map (prebinEventS splits)))).map (!·))) = .ok pb := by
        cases hf : st.fixed with
        | none => simp only [hf] at h; exact ⟨_, h⟩
        | some fx =>
          simp only [hf] at h
          split_ifs at h with h3
          exact ⟨_, h⟩
      obtain ⟨st', h'⟩ := this
      obtain ⟨hs, hr⟩ := ih _ (hn ▸ hlt) st' _ h' rfl
      exact ⟨hs.trans (select_sublist _ _), hr⟩
    · rw [dif_neg h1] at h
      cases h
      refine ⟨List.Sublist.refl _, Or.inr ⟨fun hc => h0 (List.length_eq_zero_iff.2 hc), rfl, rfl, rfl, ?_⟩⟩
      intro i hi recs hcl
      by_contra hcon
      apply h1
      rw [List.any_eq_true]
      refine ⟨true, ?_, rfl⟩
      unfold pureMaskM
      refine List.mem_map.2 ⟨i, List.mem_range.2 (Nat.lt_succ_of_le hi), ?_⟩
      rw [List.any_eq_true]
      refine ⟨(prebinNonevent splits recs, prebinEventS splits recs), ?_, ?_⟩
      · rw [List.zip_map, List.mem_map]
        exact ⟨(recs, recs), List.mem_iff_getElem.2 (by
          obtain ⟨j, hj, hjc⟩ := List.mem_iff_getElem.1 hcl
          exact ⟨j, by simpa using hj, by simp [hjc]⟩), rfl⟩
      · have hi' : i < splits.length + 1 := Nat.lt_succ_of_le hi
        simp only [prebinNonevent, prebinEventS, prebinRest, prebinEvent, List.getD, List.getElem?_map,
          List.getElem?_range hi', Option.map_some, Option.getD_some, Bool.or_eq_true, beq_iff_eq]
        change ¬ (0 < countClass false (inPrebin splits recs i) ∧ 0 < countRest false (inPrebin splits recs i)) at hcon
        omega

theorem computePrebinsS_ok (clean : List (Scen α)) (st : ScenState α) (splits : List α)
    (hf : st.fixed = none) : ∃ pb, computePrebinsS clean st splits = .ok pb := by
  induction hn : splits.length using Nat.strong_induction_on generalizing splits st with
  | _ n ih =>
    rw [computePrebinsS]
    simp only
    simp only [hf]
    split_ifs with h0 h1
    · exact ⟨_, rfl⟩
    · have hm := maskSplits_any (c := false) (n := splits.length) (by omega) (by simp [pureMaskM]) h1
      have hlt := length_select_lt hm.1 hm.2
      exact ih _ (hn ▸ hlt) _ _ hf rfl
    · exact ⟨_, rfl⟩

theorem RespectsS.last {w : List ℝ} {solver : SolverS} (h : RespectsS w solver) (o : ScenOpts) (inp : MultiInput)
    (hn : 0 < inp.n) : (solve inp.n (solver o inp)).2.getLast? = some true :=
  solve_last hn (fun a (ha : acceptsScen o inp a) => ha.core) (h o inp)

/-- Counts of a refined pre-binning, merged along the solution. -/
theorem accum_digitize [LinearOrder κ] {splits : List α} {l : List (RecM α κ)} {R : List Bool} (p : RecM α κ → Bool)
    (hsort : splits.Pairwise (· ≤ ·)) (hl : R.length = splits.length + 1) (hlast : R.getLast? = some true)
    (hclean : ∀ r ∈ l, r.x ≠ none) {col : List ℕ}
    (hcol : col = (List.range (splits.length + 1)).map fun i => (inPrebin splits l i).countP p) :
    (accumBins R col 0).length = (select splits R.dropLast).length + 1 ∧
    ∀ k, (accumBins R col 0).getD k 0 =
      (l.filter fun r => digitize false (select splits R.dropLast) r.x == k).countP p := by
  have hcount : R.count true = R.dropLast.count true + 1 := by
    obtain ⟨l, hl⟩ := List.getLast?_eq_some_iff.1 hlast
    rw [hl]; simp
  have hcl : R.length = col.length := by rw [hcol]; simpa using hl
  refine ⟨by rw [accumBins_length _ _ _ hcl, hcount, length_select _ _ (by simp [hl])], fun k => ?_⟩
  rw [accumBins_getD _ _ _ _ hcl (Or.inr hlast)]
  have hidx : ∀ r ∈ l, digitize false splits r.x < R.length := by
    intro r _
    have := digitize_le false splits r.x
    omega
  have key := countP_classes l p (fun r => digitize false splits r.x) R.length (fun i => binOf R i == k) hidx
  have hkey : ∀ r ∈ l, binOf R (digitize false splits r.x) = digitize false (select splits R.dropLast) r.x := by
    intro r hr
    have hx := hclean r hr
    cases hxv : r.x with
    | none => exact absurd hxv hx
    | some v =>
      have h5 := countP_select (s := splits) (m := R.dropLast) hsort (by simp [hl]) v
      have h6 : digitize false (select splits R.dropLast) (some v) =
          binOf R.dropLast (digitize false splits (some v)) := by
        simpa [digitize, binOf] using h5
      rw [h6, binOf_dropLast]
      have := digitize_le false splits (some v)
      omega
  have h7 : (l.filter fun r => digitize false (select splits R.dropLast) r.x == k) =
      l.filter fun r => (fun i => binOf R i == k) (digitize false splits r.x) :=
    List.filter_congr fun r hr => by simp only [hkey r hr]
  rw [h7, ← key]
  simp only [ite_self, zero_add]
  refine sum_congr rfl fun i hi => ?_
  have hi' : i < splits.length + 1 := by
    have := mem_range.1 hi; omega
  by_cases hb : binOf R i = k
  · rw [hcol]
    simp [hb, List.getD, hi', inPrebin]
  · simp [hb]

/-- Shape and content of the columns of the tables. -/
theorem fitFromS_column {c : ScenCfg} {sc : SpecialCodes α} {solver : SolverS} {w : List ℝ} {scens : List (Scen α)}
    {st : ScenState α} {splits : List α} {f : FittedS α} (hr : RespectsS w solver)
    (hsort : splits.Pairwise (· ≤ ·)) (h : fitFromS c sc solver scens st splits = .ok f) :
    sc.isDict = false ∧ f.splits.Sublist splits ∧ f.nonevent.length = scens.length ∧ f.event.length = scens.length ∧
    ∀ (i : ℕ) (recs : Scen α), scens[i]? = some recs →
      (∃ reg : List ℕ, f.nonevent[i]? = some (reg ++ [countClass false (splitDataM sc none recs).special,
          countClass false (splitDataM sc none recs).missing]) ∧ reg.length = f.splits.length + 1 ∧
        ∀ k, reg.getD k 0 = countClass false ((splitDataM sc none recs).clean.filter fun r => digitize false f.splits r.x == k)) ∧
      (∃ reg : List ℕ, f.event[i]? = some (reg ++ [countRest false (splitDataM sc none recs).special,
          countRest false (splitDataM sc none recs).missing]) ∧ reg.length = f.splits.length + 1 ∧
        ∀ k, reg.getD k 0 = countRest false ((splitDataM sc none recs).clean.filter fun r => digitize false f.splits r.x == k)) := by
  unfold fitFromS at h
  simp only at h
  split_ifs at h with hd hz
  refine ⟨by simpa using hd, ?_⟩
  cases hpb : computePrebinsS ((scens.map (splitDataM sc none)).map SplitM.clean) st splits with
  | error e => simp only [hpb, reduceCtorEq] at h
  | ok pb =>
    simp only [hpb] at h
    obtain ⟨hsub, hcase⟩ := computePrebinsS_spec _ _ _ _ hpb
    split_ifs at h with h0
    simp only [Except.ok.injEq] at h
    subst h
    rcases hcase with ⟨h1, -⟩ | ⟨h1, h2, h3, h4, h5⟩
    · exact absurd (by rw [h1]; rfl) h0
    · have hlast := hr.last (c.opts (scens.map List.length) st.fixed) (c.input pb.nb pb.nonevent pb.event)
        (by change 0 < pb.nb; omega)
      have hsl := solve_length pb.nb (solver (c.opts (scens.map List.length) st.fixed) (c.input pb.nb pb.nonevent pb.event))
      change (solve pb.nb _).2.getLast? = _ at hlast
      generalize hsol : (solve pb.nb (solver (c.opts (scens.map List.length) st.fixed)
        (c.input pb.nb pb.nonevent pb.event))) = R at hlast hsl ⊢
      refine ⟨(select_sublist _ _).trans hsub, by simp, by simp, fun i recs hi => ?_⟩
      have hzip : (scens.map (splitDataM sc none)).zipIdx[i]? = some (splitDataM sc none recs, i) := by
        rw [List.getElem?_zipIdx, List.getElem?_map, hi]; simp
      have hne' : R.2 ≠ [] := fun he => by rw [he] at hsl; simp at hsl; omega
      have hx : ∀ r ∈ (splitDataM sc none recs).clean, r.x ≠ none := fun r hr => (splitM_clean hr).2.1
      constructor
      · have hev : pb.nonevent.getD i [] = prebinNonevent pb.splits (splitDataM sc none recs).clean := by
          rw [h3, List.getD, List.getElem?_map, List.getElem?_map, List.getElem?_map, hi]; rfl
        obtain ⟨a1, a2⟩ := accum_digitize (fun r => r.y == some false) (hsort.sublist hsub) (by omega) hlast hx
          (col := prebinNonevent pb.splits (splitDataM sc none recs).clean) rfl
        refine ⟨_, ?_, a1, a2⟩
        change ((scens.map (splitDataM sc none)).zipIdx.map _)[i]? = _
        rw [List.getElem?_map, hzip]
        simp only [Option.map_some, hev, binInfo, List.length_eq_zero_iff, hne', if_false, Option.toList_none, List.append_nil, List.append_assoc,
          List.cons_append, List.nil_append]
      · have hev : pb.event.getD i [] = prebinEventS pb.splits (splitDataM sc none recs).clean := by
          rw [h4, List.getD, List.getElem?_map, List.getElem?_map, List.getElem?_map, hi]; rfl
        obtain ⟨a1, a2⟩ := accum_digitize (fun r => !(r.y == some false)) (hsort.sublist hsub) (by omega) hlast hx
          (col := prebinEventS pb.splits (splitDataM sc none recs).clean) rfl
        refine ⟨_, ?_, a1, a2⟩
        change ((scens.map (splitDataM sc none)).zipIdx.map _)[i]? = _
        rw [List.getElem?_map, hzip]
        simp only [Option.map_some, hev, binInfo, List.length_eq_zero_iff, hne', if_false, Option.toList_none, List.append_nil, List.append_assoc,
          List.cons_append, List.nil_append]

/-- The bins behind the regular rows of every scenario. -/
theorem fitFromS_bins {c : ScenCfg} {sc : SpecialCodes α} {solver : SolverS} {w : List ℝ} {scens : List (Scen α)}
    {st : ScenState α} {splits : List α} {f : FittedS α} (hr : RespectsS w solver)
    (h : fitFromS c sc solver scens st splits = .ok f) :
    ∃ (n : ℕ) (nev ev : List (List ℕ)), (c.input n nev ev).Rect ∧ nev.length = scens.length ∧ ev.length = scens.length ∧
      (∀ i < scens.length, ∀ j < n, 0 < (ev.getD i []).getD j 0 ∧ 0 < (nev.getD i []).getD j 0) ∧
      (∃ ps : List α, ps.Sublist splits ∧ n = ps.length + 1 ∧ f.splits = select ps
        (solve n (solver (c.opts (scens.map List.length) st.fixed) (c.input n nev ev))).2.dropLast) ∧
      f.status = (solve n (solver (c.opts (scens.map List.length) st.fixed) (c.input n nev ev))).1 ∧
      (solve n (solver (c.opts (scens.map List.length) st.fixed) (c.input n nev ev))).2.count true = f.splits.length + 1 ∧
      ∀ k ≤ f.splits.length, ∃ s e,
        IsBin n (solOf (solve n (solver (c.opts (scens.map List.length) st.fixed) (c.input n nev ev))).2) s e ∧
        binOf (solve n (solver (c.opts (scens.map List.length) st.fixed) (c.input n nev ev))).2 e = k ∧
        ∀ i < scens.length, cellM f.event k i = ∑ j ∈ Icc s e, (ev.getD i []).getD j 0 ∧
          cellM f.nonevent k i = ∑ j ∈ Icc s e, (nev.getD i []).getD j 0 := by
  unfold fitFromS at h
  simp only at h
  split_ifs at h with hd hz
  cases hpb : computePrebinsS ((scens.map (splitDataM sc none)).map SplitM.clean) st splits with
  | error e => simp only [hpb, reduceCtorEq] at h
  | ok pb =>
    simp only [hpb] at h
    obtain ⟨hsub, hcase⟩ := computePrebinsS_spec _ _ _ _ hpb
    split_ifs at h with h0
    simp only [Except.ok.injEq] at h
    subst h
    rcases hcase with ⟨h1, -⟩ | ⟨h1, h2, h3, h4, h5⟩
    · exact absurd (by rw [h1]; rfl) h0
    · have hlast := hr.last (c.opts (scens.map List.length) st.fixed) (c.input pb.nb pb.nonevent pb.event)
        (by change 0 < pb.nb; omega)
      have hsl := solve_length pb.nb (solver (c.opts (scens.map List.length) st.fixed) (c.input pb.nb pb.nonevent pb.event))
      change (solve pb.nb _).2.getLast? = _ at hlast
      refine ⟨pb.nb, pb.nonevent, pb.event, ⟨by change 0 < pb.nb; omega, ?_, ?_, ?_, ?_⟩, by simp [h3], by simp [h4], ?_, ?_⟩
      · change 0 < pb.event.length
        rw [h4]; simp; omega
      · change pb.nonevent.length = pb.event.length
        simp [h3, h4]
      · intro l hl
        change l ∈ pb.event at hl
        change l.length = pb.nb
        rw [h4, List.mem_map] at hl
        obtain ⟨cl, -, rfl⟩ := hl
        simp [prebinEventS, prebinRest, h2]
      · intro l hl
        change l ∈ pb.nonevent at hl
        change l.length = pb.nb
        rw [h3, List.mem_map] at hl
        obtain ⟨cl, -, rfl⟩ := hl
        simp [prebinNonevent, prebinEvent, h2]
      · intro i hi j hj
        have hj' : j < pb.splits.length + 1 := by omega
        have := h5 j (by omega) (splitDataM sc none scens[i]).clean
          (List.mem_map.2 ⟨_, List.mem_map.2 ⟨_, List.getElem_mem hi, rfl⟩, rfl⟩)
        rw [h3, h4]
        have e1 : (((scens.map (splitDataM sc none)).map SplitM.clean).map (prebinEventS pb.splits)).getD i [] =
            prebinEventS pb.splits (splitDataM sc none scens[i]).clean := by
          rw [List.getD, List.getElem?_map, List.getElem?_map, List.getElem?_map, List.getElem?_eq_getElem hi]; rfl
        have e2 : (((scens.map (splitDataM sc none)).map SplitM.clean).map (prebinNonevent pb.splits)).getD i [] =
            prebinNonevent pb.splits (splitDataM sc none scens[i]).clean := by
          rw [List.getD, List.getElem?_map, List.getElem?_map, List.getElem?_map, List.getElem?_eq_getElem hi]; rfl
        rw [e1, e2]
        unfold prebinNonevent prebinEventS prebinEvent prebinRest
        rw [List.getD, List.getD, List.getElem?_map, List.getElem?_map, List.getElem?_range hj']
        exact ⟨this.2, this.1⟩
      generalize hsol : (solve pb.nb (solver (c.opts (scens.map List.length) st.fixed)
        (c.input pb.nb pb.nonevent pb.event))) = R at hlast hsl ⊢
      have hcount : R.2.count true = (select pb.splits R.2.dropLast).length + 1 := by
        rw [length_select _ _ (by simp [hsl, h2])]
        obtain ⟨l, hl⟩ := List.getLast?_eq_some_iff.1 hlast
        rw [hl]; simp
      refine ⟨⟨pb.splits, hsub, h2, rfl⟩, rfl, hcount, fun k hk => ?_⟩
      obtain ⟨a, b, hb, hbk, hacc⟩ := accumBins_bin R.2 hlast (k := k) (by rw [hcount]; exact Nat.lt_succ_of_le hk)
      refine ⟨a, b, hsl ▸ hb, hbk, fun i hi => ?_⟩
      have hbn : b ≤ pb.splits.length := by have := hb.2.1; omega
      have hne' : R.2 ≠ [] := fun he => by rw [he] at hsl; simp at hsl; omega
      have key : ∀ (cols : List (List ℕ)) (g : SplitM α Bool → List ℕ) (m : SplitM α Bool → ℕ),
          (∀ l ∈ cols, l.length = R.2.length) → cols.length = scens.length →
          cellM ((scens.map (splitDataM sc none)).zipIdx.map fun p => binInfo R.2 (cols.getD p.2 []) none (g p.1) (m p.1)) k i =
            ∑ j ∈ Icc a b, (cols.getD i []).getD j 0 := by
        intro cols g m hcols hlen
        have hcl : cols.getD i [] ∈ cols := by
          rw [List.getD, List.getElem?_eq_getElem (by omega : i < cols.length)]
          exact List.getElem_mem _
        unfold cellM
        have hzip : (scens.map (splitDataM sc none)).zipIdx[i]? = some (splitDataM sc none scens[i], i) := by
          rw [List.getElem?_zipIdx, List.getElem?_map, List.getElem?_eq_getElem hi]; simp
        have e : ((scens.map (splitDataM sc none)).zipIdx.map fun p => binInfo R.2 (cols.getD p.2 []) none (g p.1)
            (m p.1)).getD i [] = binInfo R.2 (cols.getD i []) none (g (splitDataM sc none scens[i]))
              (m (splitDataM sc none scens[i])) := by
          rw [List.getD, List.getElem?_map, hzip]; rfl
        rw [e]
        simp only [binInfo, List.length_eq_zero_iff, hne', if_false, Option.toList_none,
          List.append_nil, List.append_assoc]
        rw [List.getD_append _ _ _ _ (by rw [accumBins_length _ _ _ (hcols _ hcl).symm, hcount]; exact Nat.lt_succ_of_le hk),
          hacc _ (hcols _ hcl)]
      constructor
      · refine key pb.event (fun d => [countRest false d.special]) (fun d => countRest false d.missing) (fun l hl => ?_) (by simp [h4])
        rw [h4, List.mem_map] at hl
        obtain ⟨cl, -, rfl⟩ := hl
        simp [prebinEventS, prebinRest, hsl, h2]
      · refine key pb.nonevent (fun d => [countClass false d.special]) (fun d => countClass false d.missing) (fun l hl => ?_) (by simp [h3])
        rw [h3, List.mem_map] at hl
        obtain ⟨cl, -, rfl⟩ := hl
        simp [prebinNonevent, prebinEvent, hsl, h2]

end OptBinning
