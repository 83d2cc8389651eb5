import Verif.Lemmas.CatUser
import Verif.Lemmas.Continuous2
import Verif.Model.CatUserC

/-!
# Fit of a continuous target with groups of categories
-/
namespace OptBinning
open Finset OptBinning.Spec

variable {α : Type*} [LinearOrder α]

theorem truncWeightC_pos {l : List (RecC α)} (hu : UnitWeights l) {r : RecC α} (hr : r ∈ l) : truncWeightC l ≠ 0 := by
  have : (l.map RecC.w).sum = (l.length : ℚ) := by
    clear hr
    induction l with
    | nil => simp
    | cons a l ih =>
      rw [List.map_cons, List.sum_cons, ih fun q hq => hu q (by simp [hq]), hu a (by simp)]
      push_cast [List.length_cons]; ring
  unfold truncWeightC
  rw [this, Nat.floor_natCast]
  exact (List.length_pos_of_mem hr).ne'

/-- The refinement keeps the code of every record. -/
theorem computePrebinsC_keeps {recs : List (RecC α)} (hu : UnitWeights recs) {r : RecC α} (hr : r ∈ recs) {v : α} (hv : r.x = some v) :
    ∀ (st : PrebinState α) (splits : List α) (pb : PrebinsC α), splits.Pairwise (· < ·) → v ∈ splits →
      computePrebinsC true recs st splits = .ok pb → v ∈ pb.splits := by
  intro st splits
  induction hn : splits.length using Nat.strong_induction_on generalizing splits st with
  | _ n ih =>
    intro pb hs hmem h
    rw [computePrebinsC] at h
    simp only at h
    split_ifs at h with h0 h1
    · have hm := maskSplits_any (c := true) (n := splits.length) (by omega)
        (by simp [emptyMask, prebinCells, prebinNumber]) h1
      have hlt := length_select_lt hm.1 hm.2
      obtain ⟨st', h'⟩ : ∃ st', computePrebinsC true recs st' (select splits ((maskSplits true (emptyMask
          (prebinCells true (prebinNumber true splits) splits recs))).map (!·))) = .ok pb := by
        cases hf : st.fixed with
        | none => simp only [hf] at h; exact ⟨_, h⟩
        | some fx =>
          simp only [hf] at h
          split_ifs at h with h3
          exact ⟨_, h⟩
      refine ih _ (hn ▸ hlt) st' _ rfl pb (hs.sublist (select_sublist _ _)) ?_ h'
      obtain ⟨i, hi, rfl⟩ := List.mem_iff_getElem.1 hmem
      have hd := digitize_right_idx hs (List.getElem?_eq_getElem hi)
      refine mem_select_of (i := i) (List.getElem?_eq_getElem hi) ?_
      have hne : (cellOf (recs.filter fun q => digitize true splits q.x == i)).cnt ≠ 0 :=
        truncWeightC_pos (fun q hq => hu q (List.mem_of_mem_filter hq)) (List.mem_filter.2 ⟨hr, by rw [hv, hd]; simp⟩)
      simp [maskSplits, emptyMask, prebinCells, prebinNumber, List.getElem?_range, hi, hne]
    · cases h; exact hmem

theorem fitCoreC_user_cases {solver : SolverC} {clean : List (RecC α)} {others : Option RowC} {special : List RowC}
    {missing : RowC} {st st' : PrebinState α} {splits : List α} {f : FittedC α} (hne : splits ≠ [])
    (h : fitCoreC true solver clean others special missing st splits = .ok (st', f)) :
    clean ≠ [] ∧ ∃ pb : PrebinsC α, computePrebinsC true clean st splits = .ok pb ∧ st' = pb.st ∧
      ((pb.cells.length ≤ 1 ∧ f = ⟨"OPTIMAL", pb.splits, others.toList ++ (special ++ [missing])⟩) ∨
       (2 ≤ pb.cells.length ∧ f = ⟨(solve pb.cells.length (solver pb.cells)).1,
          select pb.splits (solve pb.cells.length (solver pb.cells)).2,
          accumRows (solve pb.cells.length (solver pb.cells)).2 pb.cells CellC.zero ++
            (others.toList ++ (special ++ [missing]))⟩)) := by
  have hl : ¬ splits.length = 0 := fun h0 => hne (List.length_eq_zero_iff.1 h0)
  cases hpb : computePrebinsC true clean st splits with
  | error e => unfold fitCoreC at h; simp [hl, hpb, bind, Except.bind] at h
  | ok pb =>
    obtain ⟨h1, h2, h3, h4⟩ := computePrebinsC_spec _ _ _ _ _ hpb
    have hlen : pb.cells.length = pb.splits.length := by rw [h3]; simp [prebinCells, prebinNumber]
    have hpos : 0 < pb.splits.length := List.length_pos_iff.2 h2
    by_cases hc : clean = []
    · exfalso
      unfold fitCoreC at h
      simp only [hl, hpb, if_false, if_pos hc, bind, Except.bind, pure, Except.pure, throw, throwThe, MonadExceptOf.throw] at h
      cases h
    · refine ⟨hc, pb, rfl, ?_⟩
      unfold fitCoreC at h
      by_cases hn : pb.cells.length ≤ 1
      · have h0 : ¬ (List.replicate pb.splits.length false).length = 0 := by simp; exact h2
        simp only [hl, hpb, if_false, if_neg hc, bind, Except.bind, pure, Except.pure, fitOptimizerC, if_pos hn, if_neg h0, Except.ok.injEq, Prod.mk.injEq] at h
        obtain ⟨rfl, rfl⟩ := h
        refine ⟨rfl, Or.inl ⟨hn, ?_⟩⟩
        have hcell : ∃ c, pb.cells = [c] := List.length_eq_one_iff.1 (by omega)
        obtain ⟨c, hcell⟩ := hcell
        have : pb.splits.length = 1 := by rw [← hlen, hcell]; rfl
        rw [this, hcell]
        simp [accumRows]
      · have hsl := solve_length pb.cells.length (solver pb.cells)
        have h0 : ¬ (solve pb.cells.length (solver pb.cells)).2.length = 0 := by omega
        simp only [hl, hpb, if_false, if_neg hc, bind, Except.bind, pure, Except.pure, fitOptimizerC, if_neg hn, if_neg h0, if_true, Except.ok.injEq, Prod.mk.injEq] at h
        obtain ⟨rfl, rfl⟩ := h
        refine ⟨rfl, Or.inr ⟨by omega, ?_⟩⟩
        simp

/-- The rows of a fit with groups, at least two of which are not empty. -/
theorem fitCoreC_rows_user {solver : SolverC} {clean : List (RecC α)} {others : Option RowC} {special : List RowC}
    {missing : RowC} {st st' : PrebinState α} {splits : List α} {f : FittedC α}
    (hsolver : ∀ cells : List CellC, 0 < cells.length → (solve cells.length (solver cells)).2.getLast? = some true)
    (hclean : ∀ r ∈ clean, ∃ v, r.x = some v ∧ v ∈ splits) (hu : UnitWeights clean) (hsort : splits.Pairwise (· < ·))
    (htwo : ∃ r ∈ clean, ∃ q ∈ clean, r.x ≠ q.x)
    (h : fitCoreC true solver clean others special missing st splits = .ok (st', f)) :
    f.splits.Sublist splits ∧ (∀ r ∈ clean, digitize true f.splits r.x < f.splits.length) ∧
    ∃ reg : List RowC, f.rows = reg ++ (others.toList ++ (special ++ [missing])) ∧ reg.length = f.splits.length ∧
      ∀ k < f.splits.length, ∃ l : List (RecC α), l.Perm (clean.filter fun r => digitize true f.splits r.x == k) ∧
        reg[k]? = some (cellOf l).row := by
  obtain ⟨r1, hr1, r2, hr2, hr12⟩ := htwo
  have hne : splits ≠ [] := by
    obtain ⟨v, -, hv⟩ := hclean r1 hr1
    exact List.ne_nil_of_mem hv
  have hw : WholeC clean := fun r hr => ⟨1, by rw [hu r hr]; simp⟩
  obtain ⟨hc, pb, hpb, -, hcase⟩ := fitCoreC_user_cases hne h
  obtain ⟨hsub, h2, h3, h4⟩ := computePrebinsC_spec _ _ _ _ _ hpb
  have hlen : pb.cells.length = pb.splits.length := by rw [h3]; simp [prebinCells, prebinNumber]
  have hkeep : ∀ r ∈ clean, ∃ v, r.x = some v ∧ v ∈ pb.splits := fun r hr => by
    obtain ⟨v, hv, hs⟩ := hclean r hr
    exact ⟨v, hv, computePrebinsC_keeps hu hr hv _ _ _ hsort hs hpb⟩
  have hsp : pb.splits.Pairwise (· < ·) := hsort.sublist hsub
  rcases hcase with ⟨hle, -⟩ | ⟨-, rfl⟩
  · exfalso
    obtain ⟨v, hv, hvs⟩ := hkeep r1 hr1
    obtain ⟨w, hw', hws⟩ := hkeep r2 hr2
    have h1 : pb.splits.length = 1 := by
      have := List.length_pos_iff.2 h2; omega
    obtain ⟨a, ha⟩ := List.length_eq_one_iff.1 h1
    rw [ha, List.mem_singleton] at hvs hws
    exact hr12 (by rw [hv, hw', hvs, hws])
  · have hlast := hsolver pb.cells (by have := List.length_pos_iff.2 h2; omega)
    have hsl := solve_length pb.cells.length (solver pb.cells)
    simp only
    generalize solve pb.cells.length (solver pb.cells) = R at hlast hsl ⊢
    have hsel : (select pb.splits R.2).length = R.2.count true := length_select _ _ (by omega)
    set gs : List (List (RecC α)) := (List.range pb.splits.length).map fun i =>
      clean.filter fun r => digitize true pb.splits r.x == i with hgs
    have hcells : pb.cells = gs.map cellOf := by
      rw [h3, hgs, List.map_map]; simp [prebinCells, prebinNumber, Function.comp_def]
    have hgw : ∀ g ∈ gs, WholeC g := by
      intro g hg
      obtain ⟨i, -, rfl⟩ := List.mem_map.1 hg
      exact hw.sublist (List.filter_sublist.subset)
    have hrows : accumRows R.2 pb.cells CellC.zero = (accumGroups R.2 gs []).map fun l => (cellOf l).row := by
      rw [hcells, ← cellOf_nil (α := α), accumRows_groups R.2 gs [] hgw (by intro r hr; simp at hr)]
    have hgl : R.2.length = gs.length := by rw [hsl, hlen]; simp [hgs]
    have hidx : ∀ r ∈ clean, digitize true pb.splits r.x < R.2.length := by
      intro r hr
      obtain ⟨v, hv, hvs⟩ := hkeep r hr
      obtain ⟨i, hi, rfl⟩ := List.mem_iff_getElem.1 hvs
      rw [hv, digitize_right_idx hsp (List.getElem?_eq_getElem hi)]
      omega
    have hkey : ∀ r ∈ clean, binOf R.2 (digitize true pb.splits r.x) = digitize true (select pb.splits R.2) r.x := by
      intro r hr
      obtain ⟨v, hv, -⟩ := hkeep r hr
      have h5 := countP_select_lt (s := pb.splits) (m := R.2) (hsp.imp le_of_lt) (by omega) v
      rw [hv]
      simpa [digitize, binOf] using h5.symm
    have hbin : ∀ i < R.2.length, binOf R.2 i < R.2.count true := by
      intro i hi
      obtain ⟨l, hl⟩ := List.getLast?_eq_some_iff.1 hlast
      unfold binOf
      rw [hl] at hi ⊢
      have hi' : i ≤ l.length := by simpa [Nat.lt_succ_iff] using hi
      rw [List.take_append_of_le_length hi', List.count_append]
      have := (List.take_sublist i l).count_le true
      simp
      omega
    refine ⟨(select_sublist _ _).trans hsub, fun r hr => ?_, accumRows R.2 pb.cells CellC.zero, rfl, ?_, ?_⟩
    · rw [← hkey r hr, hsel]
      exact hbin _ (hidx r hr)
    · rw [hrows, List.length_map, accumGroups_length _ _ _ hgl, hsel]
    · intro k hk
      have hk' : k < (accumGroups R.2 gs []).length := by
        rw [accumGroups_length _ _ _ hgl, ← hsel]; exact hk
      refine ⟨(accumGroups R.2 gs []).getD k [], ?_, ?_⟩
      · rw [← Multiset.coe_eq_coe, accumGroups_getD _ _ _ _ hgl (Or.inr hlast)]
        have key := multiset_classes clean (fun r => digitize true pb.splits r.x) R.2.length
          (fun i => binOf R.2 i == k) hidx
        have h7 : (clean.filter fun r => digitize true (select pb.splits R.2) r.x == k) =
            clean.filter fun r => (fun i => binOf R.2 i == k) (digitize true pb.splits r.x) :=
          List.filter_congr fun r hr => by simp only [hkey r hr]
        rw [h7, ← key]
        simp only [Multiset.coe_nil, ite_self, zero_add]
        refine sum_congr rfl fun i hi => ?_
        have hi' : i < pb.splits.length := by
          have := mem_range.1 hi; omega
        have : gs.getD i [] = clean.filter fun r => digitize true pb.splits r.x == i := by
          simp [hgs, List.getD, hi']
        rw [this]
        by_cases hb : binOf R.2 i = k <;> simp [hb]
      · rw [hrows, List.getElem?_map]
        simp [List.getElem?_eq_getElem hk']

end OptBinning
