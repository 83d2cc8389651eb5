import Verif.Lemmas.Fit
import Verif.Lemmas.Refine

set_option linter.unusedSectionVars false
set_option linter.unusedSimpArgs false

namespace OptBinning
open Spec Finset

variable {α : Type*} [LinearOrder α]

theorem solve_length (n : ℕ) (ans : SolverAnswer) : (solve n ans).2.length = n := by
  cases ans <;> simp [solve]

theorem getLast?_map_range {n : ℕ} (hn : 0 < n) (f : ℕ → Bool) (h : f (n - 1) = true) :
    ((List.range n).map f).getLast? = some true := by
  obtain ⟨m, rfl⟩ := Nat.exists_eq_succ_of_ne_zero hn.ne'
  simp [List.range_succ] at *
  exact h

theorem solve_last {R : Type*} [LE R] {n : ℕ} {ok : Assign → Prop} {obj : Assign → R} {ans : SolverAnswer} (hn : 0 < n)
    (hok : ∀ a, ok a → Core n a.x) (hv : ans.Valid ok obj) : (solve n ans).2.getLast? = some true := by
  cases ans with
  | optimal a =>
    have h := hok a hv.1
    exact getLast?_map_range hn _ ((diag_eq_true h (by omega)).2 (h.last hn))
  | feasible a =>
    have h := hok a hv
    exact getLast?_map_range hn _ ((diag_eq_true h (by omega)).2 (h.last hn))
  | other s => exact getLast?_map_range hn _ (by simp)

theorem Respects.last {c : SolverCfg} {solver : Solver} (h : Respects c solver) (nev ev : List ℕ)
    (hn : 0 < nev.length) : (solve nev.length (solver nev ev)).2.getLast? = some true := by
  rcases h with ⟨reg, h⟩ | ⟨reg, h⟩
  · exact solve_last hn (fun a ha => acceptsCP.core (inp := c.input nev ev) ha) (h nev ev)
  · exact solve_last hn (fun a ha => acceptsMIP.core (inp := c.input nev ev) ha) (h nev ev)

theorem prebinCounts_getD (right : Bool) (nb : ℕ) (splits : List α) (recs : List (Rec α)) (event : Bool) {i : ℕ}
    (hi : i < nb) : (prebinCounts right nb splits recs event).getD i 0 =
      truncWeight (recs.filter fun r => r.isEvent == event && digitize right splits r.x == i) := by
  simp [prebinCounts, List.getD, hi]

theorem binOf_dropLast (sol : List Bool) {i : ℕ} (h : i ≤ sol.length - 1) : binOf sol.dropLast i = binOf sol i := by
  unfold binOf
  rw [List.dropLast_eq_take, List.take_take, Nat.min_eq_left h]

/-- Shape and content of one column of the table. -/
theorem fitCore_column {cfg : PrebinCfg} {solver : Solver} {clean : List (Rec α)} {others : Bool → Option ℕ}
    {special : Bool → List ℕ} {missing : Bool → ℕ} {st st' : PrebinState α}
    {splits : List α} {f : Fitted α} (hcat : cfg.catUser = false)
    (hsolver : ∀ nev ev : List ℕ, 0 < nev.length → (solve nev.length (solver nev ev)).2.getLast? = some true)
    (hclean : ∀ r ∈ clean, r.x ≠ none) (hw : WholeWeights clean) (hsort : splits.Pairwise (· ≤ ·))
    (h : fitCore cfg solver clean others special missing st splits = .ok (st', f)) :
    f.splits.Sublist splits ∧ ∀ event : Bool, ∃ reg : List ℕ,
      (if event then f.event else f.nonevent) =
        reg ++ ((others event).toList ++ (special event ++ [missing event])) ∧
      reg.length = f.splits.length + 1 ∧
      ∀ k, ((reg.getD k 0 : ℕ) : ℚ) =
        ((clean.filter fun r => r.isEvent == event && digitize false f.splits r.x == k).map Rec.w).sum := by
  unfold fitCore at h
  cases hpb : computePrebins cfg clean st splits with
  | error e => simp [hpb, bind, Except.bind] at h
  | ok pb =>
    simp only [hpb, bind, Except.bind, pure, Except.pure, Except.ok.injEq, Prod.mk.injEq] at h
    obtain ⟨-, hf⟩ := h
    obtain ⟨hsub, hcase⟩ := computePrebins_spec _ _ _ _ _ hpb
    rcases hcase with ⟨h1, h2, h3⟩ | ⟨h1, h2, h3, -⟩
    · have hr : fitOptimizer cfg.catUser solver pb.splits pb.nonevent pb.event = ⟨"OPTIMAL", [], []⟩ := by
        simp [fitOptimizer, h1, h2]
      rw [hr] at hf
      subst hf
      refine ⟨List.nil_sublist _, fun event => ⟨[truncWeight (clean.filter fun q => q.isEvent == event)], ?_, rfl, ?_⟩⟩
      · cases event <;> simp [binInfo, accumBins, h1]
      · intro k
        have hd : ∀ r ∈ clean, digitize false ([] : List α) r.x = 0 := by
          intro r _
          cases hx : r.x <;> simp [digitize]
        rcases Nat.eq_zero_or_pos k with rfl | hk
        · simp only [List.getD_cons_zero]
          rw [truncWeight_whole (wholeWeights_filter hw _)]
          congr 2
          refine List.filter_congr fun r hr => ?_
          simp [hd r hr]
        · have : clean.filter (fun r => r.isEvent == event && digitize false ([] : List α) r.x == k) = [] := by
            rw [List.filter_eq_nil_iff]
            intro r hr
            simp [hd r hr]
            intro _
            omega
          rw [this]
          obtain ⟨m, rfl⟩ := Nat.exists_eq_succ_of_ne_zero hk.ne'
          simp
    · have hlen : pb.nonevent.length = pb.splits.length + 1 := by
        rw [h2, length_prebinCounts]; simp [prebinNumber, hcat]
      have hlen' : pb.event.length = pb.splits.length + 1 := by
        rw [h3, length_prebinCounts]; simp [prebinNumber, hcat]
      have hpos : 0 < pb.splits.length := List.length_pos_iff.2 h1
      have hn2 : ¬ pb.nonevent.length ≤ 1 := by omega
      have hlast := hsolver pb.nonevent pb.event (by omega)
      have hsl := solve_length pb.nonevent.length (solver pb.nonevent pb.event)
      generalize hsol : (solve pb.nonevent.length (solver pb.nonevent pb.event)) = R at hlast hsl
      have hr : fitOptimizer cfg.catUser solver pb.splits pb.nonevent pb.event =
          ⟨R.1, select pb.splits R.2.dropLast, R.2⟩ := by
        simp [fitOptimizer, hn2, hcat, hsol]
      rw [hr] at hf
      subst hf
      have hne : R.2.length ≠ 0 := by omega
      have hcount : R.2.count true = R.2.dropLast.count true + 1 := by
        obtain ⟨l, hl⟩ := List.getLast?_eq_some_iff.1 hlast
        rw [hl]; simp
      refine ⟨(select_sublist _ _).trans hsub, fun event => ?_⟩
      set c : List ℕ := if event then pb.event else pb.nonevent with hc
      have hcl : R.2.length = c.length := by rw [hc]; cases event <;> simp [hsl, hlen, hlen']
      have hcc : c = prebinCounts false (pb.splits.length + 1) pb.splits clean event := by
        rw [hc]; cases event <;> simp [h2, h3, hcat, prebinNumber] 
      refine ⟨accumBins R.2 c 0, ?_, ?_, ?_⟩
      · have hne' : R.2 ≠ [] := fun he => hne (by simp [he])
        cases event <;> simp [binInfo, h1, hne', hc]
      · rw [accumBins_length _ _ _ hcl, hcount, length_select _ _ (by simp [hsl, hlen])]
      · intro k
        rw [accumBins_getD _ _ _ _ hcl (Or.inr hlast)]
        have hidx : ∀ r ∈ clean, digitize false pb.splits r.x < R.2.length := by
          intro r _
          have := digitize_le false pb.splits r.x
          omega
        have key := sum_filter_classes clean (fun r => r.isEvent == event) (fun r => digitize false pb.splits r.x)
          R.2.length (fun i => binOf R.2 i == k) hidx
        have hkey : ∀ r ∈ clean, binOf R.2 (digitize false pb.splits r.x) =
            digitize false (select pb.splits R.2.dropLast) r.x := by
          intro r hr
          have hx := hclean r hr
          cases hxv : r.x with
          | none => exact absurd hxv hx
          | some v =>
            have h5 := countP_select (s := pb.splits) (m := R.2.dropLast) (hsort.sublist hsub)
              (by simp [hsl, hlen]) v
            have h6 : digitize false (select pb.splits R.2.dropLast) (some v) =
                binOf R.2.dropLast (digitize false pb.splits (some v)) := by
              simpa [digitize, binOf] using h5
            rw [h6, binOf_dropLast]
            have := digitize_le false pb.splits (some v)
            omega
        have : ((clean.filter fun r => r.isEvent == event &&
            digitize false (select pb.splits R.2.dropLast) r.x == k).map Rec.w).sum =
            ((clean.filter fun r => r.isEvent == event &&
              (fun i => binOf R.2 i == k) (digitize false pb.splits r.x)).map Rec.w).sum := by
          congr 2
          refine List.filter_congr fun r hr => ?_
          simp only [hkey r hr]
        rw [this, ← key]
        push_cast
        simp only [ite_self, Nat.cast_zero, zero_add]
        refine sum_congr rfl fun i hi => ?_
        have hi' : i < pb.splits.length + 1 := by
          have := mem_range.1 hi; omega
        by_cases hb : binOf R.2 i = k
        · simp only [hb, beq_self_eq_true, if_true]
          rw [hcc, prebinCounts_getD _ _ _ _ _ hi', truncWeight_whole (wholeWeights_filter hw _)]
        · simp [hb]

theorem fitFrom_column {cfg : PrebinCfg} {sc : SpecialCodes α} {solver : Solver} {s : Split α} {st st' : PrebinState α}
    {splits : List α} {f : Fitted α} (hcat : cfg.catUser = false)
    (hsolver : ∀ nev ev : List ℕ, 0 < nev.length → (solve nev.length (solver nev ev)).2.getLast? = some true)
    (hclean : ∀ r ∈ s.clean, r.x ≠ none) (hw : WholeWeights s.clean) (hsort : splits.Pairwise (· ≤ ·))
    (h : fitFrom cfg sc solver s st splits = .ok (st', f)) :
    f.splits.Sublist splits ∧ ∀ event : Bool, ∃ reg : List ℕ,
      (if event then f.event else f.nonevent) =
        reg ++ (specialCounts sc s.special event ++ [truncWeight (s.missing.filter fun q => q.isEvent == event)]) ∧
      reg.length = f.splits.length + 1 ∧
      ∀ k, ((reg.getD k 0 : ℕ) : ℚ) =
        ((s.clean.filter fun r => r.isEvent == event && digitize false f.splits r.x == k).map Rec.w).sum :=
  fitCore_column hcat hsolver hclean hw hsort h

end OptBinning
