import Verif.Model.Multiclass
import Verif.Lemmas.Fit3
import Verif.Lemmas.Continuous2
import Verif.Lemmas.MulticlassSolver

/-! # The fit path of the multiclass binning -/
set_option linter.unusedSectionVars false
set_option linter.unusedSimpArgs false
namespace OptBinning
open Spec Finset

variable {α κ : Type*} [LinearOrder α] [LinearOrder κ]

theorem countP_classes {R : Type*} (recs : List R) (p : R → Bool) (idx : R → ℕ) (n : ℕ) (P : ℕ → Bool)
    (h : ∀ r ∈ recs, idx r < n) :
    (∑ i ∈ range n, if P i = true then (recs.filter fun r => idx r == i).countP p else 0) =
      (recs.filter fun r => P (idx r)).countP p := by
  have h1 := congrArg (Multiset.countPAddMonoidHom (fun r => p r = true)) (multiset_classes recs idx n P h)
  rw [map_sum] at h1
  simp only [Multiset.coe_countPAddMonoidHom, Multiset.coe_countP] at h1
  have e : ∀ l : List R, List.countP (fun r => decide (p r = true)) l = l.countP p := fun l => by
    congr 1; funext r; simp
  rw [e] at h1
  rw [← h1]
  refine sum_congr rfl fun i _ => ?_
  by_cases hc : P i = true
  · simp only [hc, if_true, Multiset.coe_countP, e]
  · simp [hc]

theorem mem_iff_of_eq {R : Type*} {a b : List R} (h : a = b) (r : R) : r ∈ a ↔ r ∈ b := by rw [h]

/-! ### the index of a value -/

theorem idx_regular_iff {splits : List α} {sc : SpecialCodes α} (hp : ProperCodes sc) (x : Option α) {k : ℕ}
    (hk : k ≤ splits.length) :
    idxC splits sc x = (k : ℤ) ↔ x ≠ none ∧ ¬ IsSpecialValue sc x ∧ digitize false splits x = k := by
  have h := idx_regular hp (splits := splits) (recs := [⟨x, some 0, 1⟩]) (by intro r hr; simp at hr; simp [hr]) hk
  have h2 := mem_iff_of_eq h (⟨x, some 0, 1⟩ : RecC α)
  have e2 : (RecC.isSpecial sc (⟨x, some 0, 1⟩ : RecC α)) = true ↔ IsSpecialValue sc x := isSpecial_iff _ _
  rw [← e2]
  simp only [splitDataC, List.mem_filter, List.mem_singleton, true_and, decide_eq_true_eq, Bool.and_eq_true,
    Bool.not_eq_true', RecC.isMissing, Bool.or_eq_false_iff, beq_iff_eq, Option.isNone_some, and_true] at h2
  rw [h2]
  cases x <;> simp

theorem idx_missing_iff {splits : List α} {sc : SpecialCodes α} (hp : ProperCodes sc) (x : Option α) :
    idxC splits sc x = ((splits.length + 1 + sc.count : ℕ) : ℤ) ↔ x = none := by
  have h := idx_missing hp (splits := splits) (recs := [⟨x, some 0, 1⟩]) (by intro r hr; simp at hr; simp [hr])
  have h2 := mem_iff_of_eq h (⟨x, some 0, 1⟩ : RecC α)
  simp only [splitDataC, List.mem_filter, List.mem_singleton, true_and, decide_eq_true_eq, RecC.isMissing,
    Option.isNone_some, Bool.or_false] at h2
  rw [h2]
  cases x <;> simp

theorem idx_special_iff {splits : List α} {sc : SpecialCodes α} (hp : ProperCodes sc) (x : Option α) {j : ℕ}
    (hj : j < sc.count) :
    idxC splits sc x = ((splits.length + 1 + j : ℕ) : ℤ) ↔ IsSpecialValue sc x ∧
      ∀ gs, sc = .dict gs → x ∈ (gs.getD j ("", [])).2 := by
  have h := idx_special hp (splits := splits) (recs := [⟨x, some 0, 1⟩]) hj
  have h2 := mem_iff_of_eq h (⟨x, some 0, 1⟩ : RecC α)
  have e2 : (RecC.isSpecial sc (⟨x, some 0, 1⟩ : RecC α)) = true ↔ IsSpecialValue sc x := isSpecial_iff _ _
  rw [← e2]
  simp only [List.mem_filter, List.mem_singleton, true_and, decide_eq_true_eq] at h2
  rw [h2]
  cases sc with
  | none => simp [specialGroup, splitDataC]
  | list l => simp [specialGroup, splitDataC]
  | dict gs => simp [specialGroup, splitDataC]; exact and_comm

/-! ### splitting the data -/

theorem RecM.isSpecial_iff (sc : SpecialCodes α) (r : RecM α κ) : r.isSpecial sc = true ↔ IsSpecialValue sc r.x :=
  contains_codes_iff sc r.x

theorem splitM_clean {sc : SpecialCodes α} {o : Option (List (RecM α κ) → List Bool)} {recs : List (RecM α κ)}
    {r : RecM α κ} (h : r ∈ (splitDataM sc o recs).clean) :
    r ∈ recs ∧ r.x ≠ none ∧ r.y ≠ none ∧ ¬ IsSpecialValue sc r.x := by
  have hsub : r ∈ recs.filter fun r => !r.isMissing && !r.isSpecial sc := by
    simp only [splitDataM] at h
    cases o with
    | none => exact h
    | some det => exact (select_sublist _ _).mem h
  simp only [List.mem_filter, Bool.and_eq_true, Bool.not_eq_true', RecM.isMissing, Bool.or_eq_false_iff] at hsub
  refine ⟨hsub.1, ?_, ?_, ?_⟩
  · intro hx; rw [hx] at hsub; simp at hsub
  · intro hx; rw [hx] at hsub; simp at hsub
  · intro hs
    rw [(RecM.isSpecial_iff sc r).2 hs] at hsub
    simp at hsub

theorem splitM_clean_none {sc : SpecialCodes α} {recs : List (RecM α κ)} {r : RecM α κ} :
    r ∈ (splitDataM sc none recs).clean ↔ r ∈ recs ∧ r.x ≠ none ∧ r.y ≠ none ∧ ¬ IsSpecialValue sc r.x := by
  refine ⟨splitM_clean, fun ⟨h1, h2, h3, h4⟩ => ?_⟩
  rw [← RecM.isSpecial_iff] at h4
  simp only [splitDataM, List.mem_filter, h1, true_and, Bool.and_eq_true, Bool.not_eq_true', RecM.isMissing,
    Bool.or_eq_false_iff]
  refine ⟨⟨?_, ?_⟩, by simpa using h4⟩
  · cases hx : r.x <;> simp_all
  · cases hx : r.y <;> simp_all

theorem classesM_spec (recs : List (RecM α κ)) : LabelsOf recs (fun _ => True) (classesM recs) := by
  have hp := List.perm_insertionSort (· ≤ ·) ((recs.filterMap RecM.y).dedup)
  have hs := List.pairwise_insertionSort (r := (· ≤ ·)) ((recs.filterMap RecM.y).dedup)
  have hn : (classesM recs).Nodup := hp.nodup_iff.2 (List.nodup_dedup _)
  refine ⟨(hs.and hn).imp fun h => lt_of_le_of_ne h.1 h.2, fun k => ?_⟩
  unfold classesM
  rw [hp.mem_iff, List.mem_dedup, List.mem_filterMap]
  exact ⟨fun ⟨r, h1, h2⟩ => ⟨r, h1, trivial, h2⟩, fun ⟨r, h1, _, h2⟩ => ⟨r, h1, h2⟩⟩

/-! ### the refinement loop -/

theorem prebinEvent_length (splits : List α) (recs : List (RecM α κ)) (cl : κ) :
    (prebinEvent splits recs cl).length = splits.length + 1 := by simp [prebinEvent]

theorem computePrebinsM_spec (classes : List κ) (recs : List (RecM α κ)) (st : PrebinState α) (splits : List α)
    (pb : PrebinsM α) (h : computePrebinsM classes recs st splits = .ok pb) :
    pb.splits.Sublist splits ∧
    ((pb.splits = [] ∧ pb.nb = 0 ∧ pb.nonevent = [] ∧ pb.event = []) ∨
     (pb.splits ≠ [] ∧ pb.nb = pb.splits.length + 1 ∧ pb.nonevent = classes.map (prebinRest pb.splits recs) ∧
      pb.event = classes.map (prebinEvent pb.splits recs) ∧
      ∀ i ≤ pb.splits.length, ∀ cl ∈ classes, 0 < countClass cl (inPrebin pb.splits recs i) ∧
        0 < countRest cl (inPrebin pb.splits recs i))) := by
  induction hn : splits.length using Nat.strong_induction_on generalizing splits st with
  | _ n ih =>
    rw [computePrebinsM] at h
    simp only at h
    split_ifs at h with h0 h1
    · cases h
      exact ⟨List.Sublist.refl _, Or.inl ⟨List.length_eq_zero_iff.1 h0, rfl, rfl, rfl⟩⟩
    · have hm := maskSplits_any (c := false) (n := splits.length) (by omega) (by simp [pureMaskM]) h1
      have hlt := length_select_lt hm.1 hm.2
      have : ∃ st', computePrebinsM classes recs st' (select splits ((maskSplits false (pureMaskM (splits.length + 1)
          (classes.map (prebinRest splits recs)) (classes.map (prebinEvent splits recs)))).map (!·))) = .ok pb := by
        cases hf : st.fixed with
        | none => simp only [hf] at h; exact ⟨_, h⟩
        | some fx =>
          simp only [hf] at h
          split_ifs at h with h3
          exact ⟨_, h⟩
      obtain ⟨st', h'⟩ := this
      obtain ⟨hs, hr⟩ := ih _ (hn ▸ hlt) st' _ h' rfl
      exact ⟨hs.trans (select_sublist _ _), hr⟩
    · cases h
      refine ⟨List.Sublist.refl _, Or.inr ⟨fun hc => h0 (List.length_eq_zero_iff.2 hc), rfl, rfl, rfl, ?_⟩⟩
      intro i hi cl hcl
      by_contra hcon
      apply h1
      rw [List.any_eq_true]
      refine ⟨true, ?_, rfl⟩
      unfold pureMaskM
      refine List.mem_map.2 ⟨i, List.mem_range.2 (Nat.lt_succ_of_le hi), ?_⟩
      rw [List.any_eq_true]
      refine ⟨(prebinRest splits recs cl, prebinEvent splits recs cl), ?_, ?_⟩
      · rw [List.zip_map, List.mem_map]
        exact ⟨(cl, cl), List.mem_iff_getElem.2 (by
          obtain ⟨j, hj, hjc⟩ := List.mem_iff_getElem.1 hcl
          exact ⟨j, by simpa using hj, by simp [hjc]⟩), rfl⟩
      · have hi' : i < splits.length + 1 := Nat.lt_succ_of_le hi
        simp only [prebinRest, prebinEvent, List.getD, List.getElem?_map, List.getElem?_range hi', Option.map_some,
          Option.getD_some, Bool.or_eq_true, beq_iff_eq]
        change ¬ (0 < countClass cl (inPrebin splits recs i) ∧ 0 < countRest cl (inPrebin splits recs i)) at hcon
        omega

/-- Without fixed user splits the refinement does not fail. -/
theorem computePrebinsM_ok (classes : List κ) (recs : List (RecM α κ)) (st : PrebinState α) (splits : List α)
    (hf : st.fixed = none) : ∃ pb, computePrebinsM classes recs st splits = .ok pb := by
  induction hn : splits.length using Nat.strong_induction_on generalizing splits st with
  | _ n ih =>
    rw [computePrebinsM]
    simp only
    split_ifs with h0 h1
    · exact ⟨_, rfl⟩
    · have hm := maskSplits_any (c := false) (n := splits.length) (by omega) (by simp [pureMaskM]) h1
      have hlt := length_select_lt hm.1 hm.2
      simp only [hf]
      exact ih _ (hn ▸ hlt) _ _ rfl rfl
    · exact ⟨_, rfl⟩

/-! ### the solver -/

theorem multiBase.core {o : MultiOpts} {z : Bool} {n : ℕ} {a : Assign} (h : multiBase o z n a) : Core n a.x := by
  obtain ⟨⟨d1, -⟩, h2, h3, -⟩ := h
  exact ⟨d1, h2, h3⟩

theorem RespectsM.last {c : SolverCfgM} {solver : SolverM} (h : RespectsM c solver) (n : ℕ) (nev ev : List (List ℕ))
    (hn : 0 < n) : (solve n (solver n nev ev)).2.getLast? = some true := by
  rcases h with h | h
  · exact solve_last hn (fun a ha => multiBase.core ha.1) (h n nev ev)
  · exact solve_last hn (fun a ha => multiBase.core ha.1) (h n nev ev)

/-! ### the columns of the table -/

theorem specialCountsM_length (sc : SpecialCodes α) (special : List (RecM α κ)) (cl : κ) :
    (specialCountsM sc special cl).length = sc.count := by
  cases sc <;> simp [specialCountsM, SpecialCodes.count]

/-- Shape and content of the columns of the table. -/
theorem fitFromM_column {sc : SpecialCodes α} {solver : SolverM} {s : SplitM α κ} {st st' : PrebinState α}
    {splits : List α} {f : FittedM α κ}
    (hsolver : ∀ n nev ev, 0 < n → (solve n (solver n nev ev)).2.getLast? = some true)
    (hclean : ∀ r ∈ s.clean, r.x ≠ none) (hsort : splits.Pairwise (· ≤ ·))
    (h : fitFromM sc solver s st splits = .ok (st', f)) :
    f.splits.Sublist splits ∧ f.classes = classesM s.clean ∧ f.classes.length ≤ 100 ∧ f.event.length = f.classes.length ∧
    (∀ (i : ℕ) (cl : κ), f.classes[i]? = some cl → ∃ reg : List ℕ,
      f.event[i]? = some (reg ++ (specialCountsM sc s.special cl ++ [countClass cl s.missing])) ∧
      reg.length = f.splits.length + 1 ∧
      ∀ k, reg.getD k 0 = countClass cl (s.clean.filter fun r => digitize false f.splits r.x == k)) ∧
    (f.splits ≠ [] → ∃ ps : List α, f.splits.Sublist ps ∧ ps.Sublist splits ∧ ∀ i ≤ ps.length, ∀ cl ∈ f.classes,
      0 < countClass cl (inPrebin ps s.clean i) ∧ 0 < countRest cl (inPrebin ps s.clean i)) := by
  unfold fitFromM at h
  simp only at h
  split_ifs at h with h100
  cases hpb : computePrebinsM (classesM s.clean) s.clean st splits with
  | error e => simp [hpb] at h
  | ok pb =>
    simp only [hpb, Except.ok.injEq, Prod.mk.injEq] at h
    obtain ⟨-, rfl⟩ := h
    obtain ⟨hsub, hcase⟩ := computePrebinsM_spec _ _ _ _ _ hpb
    have hzip : ∀ (i : ℕ) (cl : κ), (classesM s.clean)[i]? = some cl →
        (classesM s.clean).zipIdx[i]? = some (cl, i) := by
      intro i cl hi
      rw [List.getElem?_zipIdx, hi]; simp
    rcases hcase with ⟨h1, h2, h3, h4⟩ | ⟨h1, h2, h3, h4, h5⟩
    · have hr : fitOptimizerM solver pb = ⟨"OPTIMAL", [], []⟩ := by simp [fitOptimizerM, h1, h2]
      rw [hr]
      refine ⟨List.nil_sublist _, rfl, by simpa using h100, by simp, fun i cl hi => ?_, fun h0 => absurd rfl h0⟩
      refine ⟨[countClass cl s.clean], ?_, rfl, fun k => ?_⟩
      · change ((classesM s.clean).zipIdx.map _)[i]? = _
        rw [List.getElem?_map, hzip i cl hi]
        simp [binInfo, accumBins, h1]
      · have hd : ∀ r ∈ s.clean, digitize false ([] : List α) r.x = 0 := by
          intro r _
          cases hx : r.x <;> simp [digitize]
        rcases Nat.eq_zero_or_pos k with rfl | hk
        · simp only [List.getD_cons_zero]
          congr 1
          symm
          rw [List.filter_eq_self]
          intro r hr
          simp [hd r hr]
        · have : s.clean.filter (fun r => digitize false ([] : List α) r.x == k) = [] := by
            rw [List.filter_eq_nil_iff]
            intro r hr
            simp [hd r hr]
            omega
          rw [this]
          obtain ⟨m, rfl⟩ := Nat.exists_eq_succ_of_ne_zero hk.ne'
          simp [countClass]
    · have hlast := hsolver pb.nb pb.nonevent pb.event (by omega)
      have hsl := solve_length pb.nb (solver pb.nb pb.nonevent pb.event)
      have hnb : ¬ pb.nb = 0 := by omega
      generalize hsol : (solve pb.nb (solver pb.nb pb.nonevent pb.event)) = R at hlast hsl
      have hr : fitOptimizerM solver pb = ⟨R.1, select pb.splits R.2.dropLast, R.2⟩ := by
        simp [fitOptimizerM, hnb, hsol]
      rw [hr]
      have hcount : R.2.count true = R.2.dropLast.count true + 1 := by
        obtain ⟨l, hl⟩ := List.getLast?_eq_some_iff.1 hlast
        rw [hl]; simp
      refine ⟨(select_sublist _ _).trans hsub, rfl, by simpa using h100, by simp, fun i cl hi => ?_,
        fun _ => ⟨pb.splits, select_sublist _ _, hsub, h5⟩⟩
      have hcl : R.2.length = (prebinEvent pb.splits s.clean cl).length := by rw [hsl, prebinEvent_length, h2]
      have hev : pb.event.getD i [] = prebinEvent pb.splits s.clean cl := by
        change (classesM s.clean)[i]? = some cl at hi
        rw [h4, List.getD, List.getElem?_map, hi]; rfl
      refine ⟨accumBins R.2 (prebinEvent pb.splits s.clean cl) 0, ?_, ?_, fun k => ?_⟩
      · change ((classesM s.clean).zipIdx.map _)[i]? = _
        have hne' : R.2 ≠ [] := fun he => by rw [he] at hsl; simp at hsl; omega
        rw [List.getElem?_map, hzip i cl hi]
        simp only [Option.map_some, hev, List.length_eq_zero_iff, h1, if_false, binInfo, hne', List.append_nil,
          Option.toList_none, List.append_assoc]
      · rw [accumBins_length _ _ _ hcl, hcount, length_select _ _ (by simp [hsl, h2])]
      · rw [accumBins_getD _ _ _ _ hcl (Or.inr hlast)]
        have hidx : ∀ r ∈ s.clean, digitize false pb.splits r.x < R.2.length := by
          intro r _
          have := digitize_le false pb.splits r.x
          omega
        have key := countP_classes s.clean (fun r => r.y == some cl) (fun r => digitize false pb.splits r.x)
          R.2.length (fun i => binOf R.2 i == k) hidx
        have hkey : ∀ r ∈ s.clean, binOf R.2 (digitize false pb.splits r.x) =
            digitize false (select pb.splits R.2.dropLast) r.x := by
          intro r hr
          have hx := hclean r hr
          cases hxv : r.x with
          | none => exact absurd hxv hx
          | some v =>
            have h5 := countP_select (s := pb.splits) (m := R.2.dropLast) (hsort.sublist hsub)
              (by simp [hsl, h2]) v
            have h6 : digitize false (select pb.splits R.2.dropLast) (some v) =
                binOf R.2.dropLast (digitize false pb.splits (some v)) := by
              simpa [digitize, binOf] using h5
            rw [h6, binOf_dropLast]
            have := digitize_le false pb.splits (some v)
            omega
        have h7 : (s.clean.filter fun r => digitize false (select pb.splits R.2.dropLast) r.x == k) =
            s.clean.filter fun r => (fun i => binOf R.2 i == k) (digitize false pb.splits r.x) :=
          List.filter_congr fun r hr => by simp only [hkey r hr]
        rw [h7]
        unfold countClass
        rw [← key]
        simp only [ite_self, zero_add]
        refine sum_congr rfl fun i hi => ?_
        have hi' : i < pb.splits.length + 1 := by
          have := mem_range.1 hi; omega
        by_cases hb : binOf R.2 i = k
        · simp [hb, prebinEvent, List.getD, hi', countClass, inPrebin]
        · simp [hb]

end OptBinning
