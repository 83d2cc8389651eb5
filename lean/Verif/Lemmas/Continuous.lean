import Mathlib.Data.List.GetD
import Mathlib.Data.Multiset.Basic
import Mathlib.Data.Multiset.Filter
import Mathlib.Algebra.BigOperators.Group.Multiset.Basic
import Verif.Model.Continuous
import Verif.Lemmas.Fit3
import Verif.Lemmas.Table

/-! # Lemmas about the fit path of the continuous binning -/
set_option linter.unusedSectionVars false
set_option linter.unusedSimpArgs false
namespace OptBinning
open Spec Finset

variable {α : Type*} [LinearOrder α]

/-- Whole weights. -/
def WholeC (recs : List (RecC α)) : Prop := ∀ r ∈ recs, ∃ n : ℕ, r.w = n

theorem WholeC.sublist {a b : List (RecC α)} (h : WholeC b) (hs : a ⊆ b) : WholeC a := fun r hr => h r (hs hr)

theorem WholeC.sum {recs : List (RecC α)} (h : WholeC recs) : ∃ n : ℕ, (recs.map RecC.w).sum = n := by
  induction recs with
  | nil => exact ⟨0, by simp⟩
  | cons r recs ih =>
    obtain ⟨a, ha⟩ := h r (by simp)
    obtain ⟨b, hb⟩ := ih fun q hq => h q (by simp [hq])
    exact ⟨a + b, by simp [ha, hb]⟩

theorem truncWeightC_whole {recs : List (RecC α)} (h : WholeC recs) :
    ((truncWeightC recs : ℕ) : ℚ) = (recs.map RecC.w).sum := by
  obtain ⟨n, hn⟩ := h.sum
  simp [truncWeightC, hn]

/-! ### cells are additive -/

theorem min?_append (a b : List ℚ) : (a ++ b).min? = optMin a.min? b.min? := by
  cases a with
  | nil => simp [optMin]
  | cons x a =>
    cases b with
    | nil => cases h : (x :: a).min? <;> simp [optMin, h]
    | cons y b =>
      simp only [List.cons_append, List.min?_cons', optMin]
      rw [List.foldl_append, List.foldl_cons]
      congr 1
      generalize a.foldl min x = m
      rw [← List.foldl_assoc (op := min)]

theorem max?_append (a b : List ℚ) : (a ++ b).max? = optMax a.max? b.max? := by
  cases a with
  | nil => simp [optMax]
  | cons x a =>
    cases b with
    | nil => cases h : (x :: a).max? <;> simp [optMax, h]
    | cons y b =>
      simp only [List.cons_append, List.max?_cons', optMax]
      rw [List.foldl_append, List.foldl_cons]
      congr 1
      generalize a.foldl max x = m
      rw [← List.foldl_assoc (op := max)]

theorem cellOf_append {a b : List (RecC α)} (ha : WholeC a) (hb : WholeC b) :
    (cellOf a).add (cellOf b) = cellOf (a ++ b) := by
  have hcnt : truncWeightC a + truncWeightC b = truncWeightC (a ++ b) := by
    have h : WholeC (a ++ b) := fun r hr => (List.mem_append.1 hr).elim (ha r) (hb r)
    have : ((truncWeightC a + truncWeightC b : ℕ) : ℚ) = (truncWeightC (a ++ b) : ℕ) := by
      push_cast
      rw [truncWeightC_whole ha, truncWeightC_whole hb, truncWeightC_whole h]; simp
    exact_mod_cast this
  simp only [cellOf, CellC.add, hcnt, List.map_append, List.sum_append, List.count_append, min?_append, max?_append]

theorem cellOf_nil : cellOf ([] : List (RecC α)) = CellC.zero := by simp [cellOf, CellC.zero, truncWeightC]

/-! ### grouping -/

/-- The groups of records behind the rows of `accumRows`. -/
def accumGroups {R : Type*} : List Bool → List (List R) → List R → List (List R)
  | true :: sol, c :: cs, acc => (acc ++ c) :: accumGroups sol cs []
  | false :: sol, c :: cs, acc => accumGroups sol cs (acc ++ c)
  | _, _, _ => []

theorem accumRows_groups (sol : List Bool) (gs : List (List (RecC α))) (acc : List (RecC α))
    (hg : ∀ g ∈ gs, WholeC g) (ha : WholeC acc) :
    accumRows sol (gs.map cellOf) (cellOf acc) = (accumGroups sol gs acc).map fun l => (cellOf l).row := by
  induction sol generalizing gs acc with
  | nil => simp [accumRows, accumGroups]
  | cons b sol ih =>
    cases gs with
    | nil => cases b <;> simp [accumRows, accumGroups]
    | cons g gs =>
      have h1 := hg g (by simp)
      have h2 : ∀ g ∈ gs, WholeC g := fun x hx => hg x (by simp [hx])
      have h3 : WholeC (acc ++ g) := fun r hr => (List.mem_append.1 hr).elim (ha r) (h1 r)
      cases b with
      | true =>
        simp only [List.map_cons, accumRows, accumGroups, cellOf_append ha h1]
        rw [← cellOf_nil (α := α), ih gs [] h2 (by intro r hr; simp at hr)]
      | false =>
        simp only [List.map_cons, accumRows, accumGroups, cellOf_append ha h1]
        exact ih gs _ h2 h3

theorem accumGroups_length {R : Type*} (sol : List Bool) (c : List (List R)) (acc : List R)
    (h : sol.length = c.length) : (accumGroups sol c acc).length = sol.count true := by
  induction sol generalizing c acc with
  | nil => simp [accumGroups]
  | cons b s ih =>
    cases c with
    | nil => simp at h
    | cons d c => cases b <;> simp [accumGroups, ih c _ (by simpa using h)]

theorem accumGroups_getD {R : Type*} (sol : List Bool) (c : List (List R)) (acc : List R) (k : ℕ)
    (h : sol.length = c.length) (hl : (sol = [] ∧ acc = []) ∨ sol.getLast? = some true) :
    (((accumGroups sol c acc).getD k [] : List R) : Multiset R) =
      (if k = 0 then (acc : Multiset R) else 0) +
        ∑ i ∈ range sol.length, if binOf sol i = k then ((c.getD i [] : List R) : Multiset R) else 0 := by
  induction sol generalizing c acc k with
  | nil =>
    rcases hl with ⟨-, rfl⟩ | hl
    · simp [accumGroups]
    · simp at hl
  | cons b s ih =>
    cases c with
    | nil => simp at h
    | cons d c =>
      have h' : s.length = c.length := by simpa using h
      have hl' : s = [] ∨ s.getLast? = some true := by
        rcases hl with ⟨hl, -⟩ | hl
        · simp at hl
        · cases s with
          | nil => exact Or.inl rfl
          | cons b' s => right; simpa using hl
      rw [List.length_cons, sum_range_succ']
      cases b with
      | true =>
        have hl2 : (s = [] ∧ ([] : List R) = []) ∨ s.getLast? = some true := by tauto
        cases k with
        | zero => simp [accumGroups, binOf]
        | succ k =>
          have := ih c [] k h' hl2
          simp only [accumGroups, List.getD_cons_succ, this]
          simp [binOf]
      | false =>
        have hne : s ≠ [] := by
          rintro rfl
          rcases hl with ⟨hl, -⟩ | hl <;> simp at hl
        have hl2 : (s = [] ∧ acc ++ d = []) ∨ s.getLast? = some true := by tauto
        have := ih c (acc ++ d) k h' hl2
        simp only [accumGroups, this, binOf, List.take_succ_cons, List.take_zero, List.count_nil, List.getD_cons_succ,
          List.getD_cons_zero]
        simp only [List.count_cons, Bool.false_eq_true, beq_iff_eq, if_false, Nat.add_zero]
        by_cases hk : k = 0
        · subst hk
          simp only [if_true, ← Multiset.coe_add]
          simp only [add_assoc, add_comm, add_left_comm]
          congr!
        · simp [hk, Ne.symm hk]

/-- Collecting the classes `P`. -/
theorem multiset_classes {R : Type*} (recs : List R) (idx : R → ℕ) (n : ℕ) (P : ℕ → Bool)
    (h : ∀ r ∈ recs, idx r < n) :
    (∑ i ∈ range n, if P i = true then ((recs.filter fun r => idx r == i : List R) : Multiset R) else 0) =
      ((recs.filter fun r => P (idx r) : List R) : Multiset R) := by
  induction recs with
  | nil => simp
  | cons r recs ih =>
    have ih' := ih fun q hq => h q (by simp [hq])
    have hr : idx r < n := h r (by simp)
    have key : ∀ i, (((r :: recs).filter fun r => idx r == i : List R) : Multiset R) =
        (if idx r = i then {r} else 0) + ((recs.filter fun r => idx r == i : List R) : Multiset R) := by
      intro i
      by_cases hc : idx r = i <;> simp [List.filter_cons, hc]
    have key2 : (((r :: recs).filter fun r => P (idx r) : List R) : Multiset R) =
        (if P (idx r) then {r} else 0) + ((recs.filter fun r => P (idx r) : List R) : Multiset R) := by
      by_cases hc : P (idx r) = true <;> simp [List.filter_cons, hc]
    rw [key2, ← ih']
    simp only [key]
    have : (∑ i ∈ range n, if P i = true then ((if idx r = i then {r} else 0) : Multiset R) +
          ((recs.filter fun r => idx r == i : List R) : Multiset R) else 0) =
        (∑ i ∈ range n, if idx r = i then (if P (idx r) = true then ({r} : Multiset R) else 0) else 0) +
          ∑ i ∈ range n, if P i = true then ((recs.filter fun r => idx r == i : List R) : Multiset R) else 0 := by
      rw [← sum_add_distrib]
      refine sum_congr rfl fun i _ => ?_
      by_cases h1 : P i = true <;> by_cases h2 : idx r = i
      · simp [h1, h2]
      · simp [h1, h2]
      · subst h2; simp [h1]
      · simp [h1, h2]
    rw [this]
    congr 1
    rw [sum_ite_eq]
    simp [hr]

/-! ### the refinement loop -/

theorem computePrebinsC_spec (cat : Bool) (recs : List (RecC α)) (st : PrebinState α) (splits : List α)
    (pb : PrebinsC α) (h : computePrebinsC cat recs st splits = .ok pb) :
    pb.splits.Sublist splits ∧ pb.splits ≠ [] ∧
      pb.cells = prebinCells cat (prebinNumber cat pb.splits) pb.splits recs ∧
      ∀ c ∈ pb.cells, c.cnt ≠ 0 := by
  induction hn : splits.length using Nat.strong_induction_on generalizing splits st with
  | _ n ih =>
    rw [computePrebinsC] at h
    simp only at h
    split_ifs at h with h0 h1
    · have hm := maskSplits_any (c := cat) (n := splits.length) (by omega)
        (by simp [emptyMask, prebinCells, prebinNumber]) h1
      have hlt := length_select_lt hm.1 hm.2
      have : ∃ st', computePrebinsC cat recs st' (select splits ((maskSplits cat (emptyMask
          (prebinCells cat (prebinNumber cat splits) splits recs))).map (!·))) = .ok pb := by
        cases hf : st.fixed with
        | none => simp only [hf] at h; exact ⟨_, h⟩
        | some fx =>
          simp only [hf] at h
          split_ifs at h with h3
          exact ⟨_, h⟩
      obtain ⟨st', h'⟩ := this
      obtain ⟨hs, hr⟩ := ih _ (hn ▸ hlt) st' _ h' rfl
      exact ⟨hs.trans (select_sublist _ _), hr⟩
    · cases h
      refine ⟨List.Sublist.refl _, fun hc => h0 (List.length_eq_zero_iff.2 hc), rfl, fun c hc h0 => ?_⟩
      apply h1
      rw [List.any_eq_true]
      exact ⟨true, List.mem_map.2 ⟨c, hc, by simp [h0]⟩, rfl⟩

/-! ### the whole fit -/

theorem fitCoreC_cases {solver : SolverC} {clean : List (RecC α)} {others : Option RowC} {special : List RowC}
    {missing : RowC} {st st' : PrebinState α} {splits : List α} {f : FittedC α}
    (h : fitCoreC false solver clean others special missing st splits = .ok (st', f)) :
    clean ≠ [] ∧
    ((splits = [] ∧ f = ⟨"OPTIMAL", [], summaryC clean :: (others.toList ++ (special ++ [missing]))⟩) ∨
     (∃ pb : PrebinsC α, splits ≠ [] ∧ computePrebinsC false clean st splits = .ok pb ∧ st' = pb.st ∧
        f = ⟨(solve pb.cells.length (solver pb.cells)).1,
          select pb.splits (solve pb.cells.length (solver pb.cells)).2.dropLast,
          accumRows (solve pb.cells.length (solver pb.cells)).2 pb.cells CellC.zero ++
            (others.toList ++ (special ++ [missing]))⟩)) := by
  unfold fitCoreC at h
  by_cases hs : splits = []
  · subst hs
    by_cases hc : clean = []
    · simp [hc, bind, Except.bind, pure, Except.pure, throw, throwThe, MonadExceptOf.throw] at h
    · refine ⟨hc, Or.inl ⟨rfl, ?_⟩⟩
      simp [hc, bind, Except.bind, pure, Except.pure, fitOptimizerC, accumRows] at h
      rw [← h.2]
  · have hl : ¬ splits.length = 0 := fun h0 => hs (List.length_eq_zero_iff.1 h0)
    cases hpb : computePrebinsC false clean st splits with
    | error e => simp [hl, hpb, bind, Except.bind] at h
    | ok pb =>
      obtain ⟨h1, h2, h3, h4⟩ := computePrebinsC_spec _ _ _ _ _ hpb
      have hlen : pb.cells.length = pb.splits.length + 1 := by rw [h3]; simp [prebinCells, prebinNumber]
      have hpos : 0 < pb.splits.length := List.length_pos_iff.2 h2
      have hn2 : ¬ pb.cells.length ≤ 1 := by omega
      by_cases hc : clean = []
      · simp [hc] at hpb
        simp [hl, hpb, hc, bind, Except.bind, pure, Except.pure, throw, throwThe, MonadExceptOf.throw] at h
      · refine ⟨hc, Or.inr ⟨pb, hs, rfl, ?_⟩⟩
        have hsl := solve_length pb.cells.length (solver pb.cells)
        have hne : (solve pb.cells.length (solver pb.cells)).2 ≠ [] := by
          intro h0; rw [h0] at hsl; simp at hsl; omega
        simp only [hl, hpb, bind, Except.bind, pure, Except.pure, fitOptimizerC, hn2, hc, if_false, hne,
          Bool.false_eq_true, List.length_eq_zero_iff, List.append_nil, Except.ok.injEq, Prod.mk.injEq,
          List.append_assoc] at h
        exact ⟨h.1.symm, h.2.symm⟩

/-- The regular rows are the summaries of the clean records of the intervals. -/
theorem fitCoreC_rows {solver : SolverC} {clean : List (RecC α)} {others : Option RowC} {special : List RowC}
    {missing : RowC} {st st' : PrebinState α} {splits : List α} {f : FittedC α}
    (hsolver : ∀ cells : List CellC, 0 < cells.length → (solve cells.length (solver cells)).2.getLast? = some true)
    (hclean : ∀ r ∈ clean, r.x ≠ none) (hw : WholeC clean) (hsort : splits.Pairwise (· ≤ ·))
    (h : fitCoreC false solver clean others special missing st splits = .ok (st', f)) :
    f.splits.Sublist splits ∧ ∃ reg : List RowC, f.rows = reg ++ (others.toList ++ (special ++ [missing])) ∧
      reg.length = f.splits.length + 1 ∧
      ∀ k ≤ f.splits.length, ∃ l : List (RecC α), l.Perm (clean.filter fun r => digitize false f.splits r.x == k) ∧
        (reg[k]? = some (cellOf l).row ∨ reg[k]? = some (summaryC l)) := by
  obtain ⟨hc, hcase⟩ := fitCoreC_cases h
  rcases hcase with ⟨h1, rfl⟩ | ⟨pb, h1, hpb, -, rfl⟩
  · refine ⟨List.nil_sublist _, [summaryC clean], rfl, rfl, fun k hk => ?_⟩
    have hk0 : k = 0 := by simpa using hk
    subst hk0
    refine ⟨clean, ?_, Or.inr rfl⟩
    have : clean.filter (fun r => digitize false ([] : List α) r.x == 0) = clean := by
      rw [List.filter_eq_self]
      intro r _
      cases hx : r.x <;> simp [digitize]
    rw [this]
  · obtain ⟨hsub, h2, h3, h4⟩ := computePrebinsC_spec _ _ _ _ _ hpb
    have hlen : pb.cells.length = pb.splits.length + 1 := by rw [h3]; simp [prebinCells, prebinNumber]
    have hlast := hsolver pb.cells (by omega)
    have hsl := solve_length pb.cells.length (solver pb.cells)
    generalize solve pb.cells.length (solver pb.cells) = R at hlast hsl ⊢
    have hcount : R.2.count true = R.2.dropLast.count true + 1 := by
      obtain ⟨l, hl⟩ := List.getLast?_eq_some_iff.1 hlast
      rw [hl]; simp
    have hsel : (select pb.splits R.2.dropLast).length + 1 = R.2.count true := by
      rw [hcount, length_select _ _ (by simp [hsl, hlen])]
    set gs : List (List (RecC α)) := (List.range (pb.splits.length + 1)).map fun i =>
      clean.filter fun r => digitize false pb.splits r.x == i with hgs
    have hcells : pb.cells = gs.map cellOf := by
      rw [h3, hgs, List.map_map]; simp [prebinCells, prebinNumber, Function.comp_def]
    have hgw : ∀ g ∈ gs, WholeC g := by
      intro g hg
      obtain ⟨i, -, rfl⟩ := List.mem_map.1 hg
      exact hw.sublist (List.filter_sublist.subset)
    have hrows : accumRows R.2 pb.cells CellC.zero = (accumGroups R.2 gs []).map fun l => (cellOf l).row := by
      rw [hcells, ← cellOf_nil (α := α), accumRows_groups R.2 gs [] hgw (by intro r hr; simp at hr)]
    have hgl : R.2.length = gs.length := by rw [hsl, hlen]; simp [hgs]
    refine ⟨(select_sublist _ _).trans hsub, accumRows R.2 pb.cells CellC.zero, rfl, ?_, ?_⟩
    · rw [hrows, List.length_map, accumGroups_length _ _ _ hgl, hsel]
    · intro k hk
      have hk' : k < (accumGroups R.2 gs []).length := by
        rw [accumGroups_length _ _ _ hgl, ← hsel]; exact Nat.lt_succ_of_le hk
      refine ⟨(accumGroups R.2 gs []).getD k [], ?_, Or.inl ?_⟩
      · rw [← Multiset.coe_eq_coe, accumGroups_getD _ _ _ _ hgl (Or.inr hlast)]
        have hidx : ∀ r ∈ clean, digitize false pb.splits r.x < R.2.length := by
          intro r _
          have := digitize_le false pb.splits r.x
          omega
        have hkey : ∀ r ∈ clean, binOf R.2 (digitize false pb.splits r.x) =
            digitize false (select pb.splits R.2.dropLast) r.x := by
          intro r hr
          have hx := hclean r hr
          cases hxv : r.x with
          | none => exact absurd hxv hx
          | some v =>
            have h5 := countP_select (s := pb.splits) (m := R.2.dropLast) (hsort.sublist hsub)
              (by simp [hsl, hlen]) v
            have h6 : digitize false (select pb.splits R.2.dropLast) (some v) =
                binOf R.2.dropLast (digitize false pb.splits (some v)) := by
              simpa [digitize, binOf] using h5
            rw [h6, binOf_dropLast]
            have := digitize_le false pb.splits (some v)
            omega
        have key := multiset_classes clean (fun r => digitize false pb.splits r.x) R.2.length
          (fun i => binOf R.2 i == k) hidx
        have h7 : (clean.filter fun r => digitize false (select pb.splits R.2.dropLast) r.x == k) =
            clean.filter fun r => (fun i => binOf R.2 i == k) (digitize false pb.splits r.x) :=
          List.filter_congr fun r hr => by simp only [hkey r hr]
        rw [h7, ← key]
        simp only [Multiset.coe_nil, ite_self, zero_add]
        refine sum_congr rfl fun i hi => ?_
        have hi' : i < pb.splits.length + 1 := by
          have := mem_range.1 hi; omega
        have : gs.getD i [] = clean.filter fun r => digitize false pb.splits r.x == i := by
          simp [hgs, List.getD, hi']
        rw [this]
        by_cases hb : binOf R.2 i = k <;> simp [hb]
      · rw [hrows, List.getElem?_map]
        simp [List.getD, List.getElem?_eq_getElem hk']

/-- If the result has a split, the solver was called and the rows are its bins. -/
theorem fitCoreC_bins {solver : SolverC} {clean : List (RecC α)} {others : Option RowC} {special : List RowC}
    {missing : RowC} {st st' : PrebinState α} {splits : List α} {f : FittedC α}
    (hsolver : ∀ cells : List CellC, 0 < cells.length → (solve cells.length (solver cells)).2.getLast? = some true)
    (h : fitCoreC false solver clean others special missing st splits = .ok (st', f)) (hne : f.splits ≠ []) :
    ∃ cells : List CellC, 2 ≤ cells.length ∧ (∀ c ∈ cells, c.cnt ≠ 0) ∧
      f.status = (solve cells.length (solver cells)).1 ∧
      (solve cells.length (solver cells)).2.count true = f.splits.length + 1 ∧
      ∀ k ≤ f.splits.length, ∃ s e row, IsBin cells.length (solOf (solve cells.length (solver cells)).2) s e ∧
        binOf (solve cells.length (solver cells)).2 e = k ∧ f.rows[k]? = some row ∧
        row.cnt = ∑ i ∈ Icc s e, (cells.map CellC.cnt).getD i 0 ∧
        row.sum = some (∑ i ∈ Icc s e, (cells.map CellC.s).getD i 0) := by
  obtain ⟨hc, hcase⟩ := fitCoreC_cases h
  rcases hcase with ⟨h1, rfl⟩ | ⟨pb, h1, hpb, -, rfl⟩
  · exact absurd rfl hne
  · obtain ⟨hsub, h2, h3, h4⟩ := computePrebinsC_spec _ _ _ _ _ hpb
    have hlen : pb.cells.length = pb.splits.length + 1 := by rw [h3]; simp [prebinCells, prebinNumber]
    have hpos : 0 < pb.splits.length := List.length_pos_iff.2 h2
    have hlast := hsolver pb.cells (by omega)
    have hsl := solve_length pb.cells.length (solver pb.cells)
    refine ⟨pb.cells, by omega, h4, rfl, ?_⟩
    generalize solve pb.cells.length (solver pb.cells) = R at hlast hsl ⊢
    have hsel : R.2.count true = (select pb.splits R.2.dropLast).length + 1 := by
      rw [length_select _ _ (by simp [hsl, hlen])]
      obtain ⟨l, hl⟩ := List.getLast?_eq_some_iff.1 hlast
      rw [hl]; simp
    refine ⟨hsel, fun k hk => ?_⟩
    have hk' : k < R.2.count true := by rw [hsel]; exact Nat.lt_succ_of_le hk
    obtain ⟨a, b, hb, hbk, hacc⟩ := accumBins_bin R.2 hlast hk'
    have hcnt : ∀ (sol : List Bool) (cs : List CellC) (acc : CellC),
        (accumRows sol cs acc).map RowC.cnt = accumBins sol (cs.map CellC.cnt) acc.cnt := by
      intro sol
      induction sol with
      | nil => intro cs acc; simp [accumRows, accumBins]
      | cons x sol ih =>
        intro cs acc
        cases cs with
        | nil => cases x <;> simp [accumRows, accumBins]
        | cons c cs => cases x <;> simp [accumRows, accumBins, ih, CellC.add, CellC.row, CellC.zero, Nat.add_comm]
    have hsum : ∀ (sol : List Bool) (cs : List CellC) (acc : CellC) (l : List ℚ), acc.s = l.sum →
        (accumRows sol cs acc).map RowC.sum =
          (accumGroups sol (cs.map fun c => [c.s]) l).map fun l => some l.sum := by
      intro sol
      induction sol with
      | nil => intro cs acc l _; simp [accumRows, accumGroups]
      | cons x sol ih =>
        intro cs acc l hl
        cases cs with
        | nil => cases x <;> simp [accumRows, accumGroups]
        | cons c cs =>
          cases x with
          | false => simp only [accumRows, accumGroups, List.map_cons]; exact ih cs _ _ (by simp [CellC.add, hl])
          | true =>
            simp only [accumRows, accumGroups, List.map_cons]
            rw [ih cs CellC.zero [] (by simp [CellC.zero])]
            simp [CellC.row, CellC.add, hl]
    have hlen2 : (accumRows R.2 pb.cells CellC.zero).length = R.2.count true := by
      have := congrArg List.length (hcnt R.2 pb.cells CellC.zero)
      rw [List.length_map, accumBins_length _ _ _ (by simp [hsl])] at this
      exact this
    have hkl : k < (accumRows R.2 pb.cells CellC.zero).length := by omega
    refine ⟨a, b, (accumRows R.2 pb.cells CellC.zero)[k], hsl ▸ hb, hbk, ?_, ?_, ?_⟩
    · rw [List.getElem?_append_left hkl, List.getElem?_eq_getElem hkl]
    · rw [← hacc (pb.cells.map CellC.cnt) (by simp [hsl])]
      have := congrArg (fun l => l.getD k 0) (hcnt R.2 pb.cells CellC.zero)
      simp only [CellC.zero] at this
      simp only [CellC.zero]
      rw [← this]
      simp only [CellC.zero] at hkl
      simp [List.getD, List.getElem?_eq_getElem hkl]
    · have h5 := congrArg (fun l => l[k]?) (hsum R.2 pb.cells CellC.zero [] (by simp [CellC.zero]))
      simp only [List.getElem?_map, List.getElem?_eq_getElem hkl] at h5
      have hgl : R.2.length = (pb.cells.map fun c => [c.s]).length := by simp [hsl]
      have hkg : k < (accumGroups R.2 (pb.cells.map fun c => [c.s]) []).length := by
        rw [accumGroups_length _ _ _ hgl]; exact hk'
      rw [List.getElem?_eq_getElem hkg] at h5
      simp only [Option.map_some, Option.some.injEq] at h5
      rw [h5]
      congr 1
      have h6 := accumGroups_getD R.2 (pb.cells.map fun c => [c.s]) [] k hgl (Or.inr hlast)
      have h7 := congrArg Multiset.sum h6
      rw [Multiset.sum_coe] at h7
      simp only [List.getD, List.getElem?_eq_getElem hkg, Option.getD_some] at h7
      rw [h7]
      simp only [Multiset.coe_nil, ite_self, zero_add]
      rw [Multiset.sum_sum, ← Finset.sum_subset (s₁ := Icc a b) (s₂ := range R.2.length)]
      · refine sum_congr rfl fun i hi => ?_
        have hbi := (binOf_iff hb i).2 (mem_Icc.1 hi)
        rw [← hbk, if_pos hbi]
        have hi2 : i < pb.cells.length := by
          have := (mem_Icc.1 hi).2
          have := hb.2.1
          omega
        simp [List.getElem?_map, List.getElem?_eq_getElem hi2]
      · intro i hi
        have := (mem_Icc.1 hi).2
        have := hb.2.1
        exact mem_range.2 (by omega)
      · intro i _ hi
        rw [if_neg]
        · simp
        · rw [← hbk]
          intro hc
          exact hi (mem_Icc.2 ((binOf_iff hb i).1 hc))

end OptBinning
