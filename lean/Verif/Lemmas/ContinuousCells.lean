import Verif.Lemmas.Continuous

/-!
# The rows of a continuous table as accumulated pre-bins
-/
namespace OptBinning
open Spec Finset

variable {α : Type*} [LinearOrder α]

/-- The accumulators at the end of each bin. -/
def accumCells : List Bool → List CellC → CellC → List CellC
  | true :: sol, c :: cs, acc => acc.add c :: accumCells sol cs CellC.zero
  | false :: sol, c :: cs, acc => accumCells sol cs (acc.add c)
  | _, _, _ => []

theorem accumRows_cells (sol : List Bool) (cs : List CellC) (acc : CellC) :
    accumRows sol cs acc = (accumCells sol cs acc).map CellC.row := by
  induction sol generalizing cs acc with
  | nil => simp [accumRows, accumCells]
  | cons x sol ih =>
    cases cs with
    | nil => cases x <;> simp [accumRows, accumCells]
    | cons c cs => cases x <;> simp [accumRows, accumCells, ih]

theorem accumCells_sum {g : CellC → ℚ} (h0 : g CellC.zero = 0) (ha : ∀ a b : CellC, g (a.add b) = g a + g b) (sol : List Bool)
    (cs : List CellC) (acc : CellC) (l : List ℚ) (hl : g acc = l.sum) :
    (accumCells sol cs acc).map g = (accumGroups sol (cs.map fun c => [g c]) l).map List.sum := by
  induction sol generalizing cs acc l with
  | nil => simp [accumCells, accumGroups]
  | cons x sol ih =>
    cases cs with
    | nil => cases x <;> simp [accumCells, accumGroups]
    | cons c cs =>
      cases x with
      | false => simp only [accumCells, accumGroups, List.map_cons]; exact ih cs _ _ (by simp [ha, hl])
      | true =>
        simp only [accumCells, accumGroups, List.map_cons]
        rw [ih cs CellC.zero [] (by simp [h0])]
        simp [ha, hl]

theorem accumCells_getElem {g : CellC → ℚ} (h0 : g CellC.zero = 0) (ha : ∀ a b : CellC, g (a.add b) = g a + g b) {sol : List Bool}
    {cs : List CellC} (hl : sol.length = cs.length) (hlast : sol.getLast? = some true) {a b k : ℕ}
    (hb : IsBin sol.length (solOf sol) a b) (hbk : binOf sol b = k) {cell : CellC} (hc : (accumCells sol cs CellC.zero)[k]? = some cell) :
    g cell = ∑ i ∈ Icc a b, (cs.map g).getD i 0 := by
  have h5 := congrArg (fun l => l[k]?) (accumCells_sum h0 ha sol cs CellC.zero [] (by simp [h0]))
  simp only [List.getElem?_map, hc, Option.map_some] at h5
  have hgl : sol.length = (cs.map fun c => [g c]).length := by simp [hl]
  have hkg : k < (accumGroups sol (cs.map fun c => [g c]) []).length := by
    by_contra hge
    rw [List.getElem?_eq_none (by omega)] at h5
    cases h5
  rw [List.getElem?_eq_getElem hkg] at h5
  simp only [Option.map_some, Option.some.injEq] at h5
  rw [h5]
  have h6 := accumGroups_getD sol (cs.map fun c => [g c]) [] k hgl (Or.inr hlast)
  have h7 := congrArg Multiset.sum h6
  rw [Multiset.sum_coe] at h7
  simp only [List.getD, List.getElem?_eq_getElem hkg, Option.getD_some] at h7
  rw [h7]
  simp only [Multiset.coe_nil, ite_self, zero_add]
  rw [Multiset.sum_sum, ← Finset.sum_subset (s₁ := Icc a b) (s₂ := range sol.length)]
  · refine sum_congr rfl fun i hi => ?_
    have hbi := (binOf_iff hb i).2 (mem_Icc.1 hi)
    rw [← hbk, if_pos hbi]
    have hi2 : i < cs.length := by
      have := (mem_Icc.1 hi).2
      have := hb.2.1
      omega
    simp [List.getElem?_map, List.getElem?_eq_getElem hi2]
  · intro i hi
    have := (mem_Icc.1 hi).2
    have := hb.2.1
    exact mem_range.2 (by omega)
  · intro i _ hi
    rw [if_neg]
    · simp
    · rw [← hbk]
      intro hc
      exact hi (mem_Icc.2 ((binOf_iff hb i).1 hc))

theorem accumCells_length (sol : List Bool) (cs : List CellC) (acc : CellC) (h : sol.length = cs.length) :
    (accumCells sol cs acc).length = sol.count true := by
  have h1 := congrArg List.length (accumCells_sum (g := fun _ => 0) rfl (by simp) sol cs acc [] rfl)
  rw [List.length_map, List.length_map, accumGroups_length _ _ _ (by simp [h])] at h1
  exact h1

/-- If the result has a split, the solver was called once, and each row is the sum of the pre-bins of its bin. -/
theorem fitCoreC_cells {solver : SolverC} {clean : List (RecC α)} {others : Option RowC} {special : List RowC}
    {missing : RowC} {st st' : PrebinState α} {splits : List α} {f : FittedC α}
    (hsolver : ∀ cells : List CellC, 0 < cells.length → (solve cells.length (solver cells)).2.getLast? = some true)
    (h : fitCoreC false solver clean others special missing st splits = .ok (st', f)) (hne : f.splits ≠ []) :
    ∃ cells : List CellC, 2 ≤ cells.length ∧ (∀ c ∈ cells, c.cnt ≠ 0) ∧
      f.status = (solve cells.length (solver cells)).1 ∧
      (solve cells.length (solver cells)).2.count true = f.splits.length + 1 ∧
      ∀ k ≤ f.splits.length, ∃ s e, IsBin cells.length (solOf (solve cells.length (solver cells)).2) s e ∧
        binOf (solve cells.length (solver cells)).2 e = k ∧ ∃ cell : CellC, f.rows[k]? = some cell.row ∧
        ((cell.cnt : ℕ) : ℚ) = ∑ i ∈ Icc s e, (cells.map fun c => ((c.cnt : ℕ) : ℚ)).getD i 0 ∧
        cell.s = ∑ i ∈ Icc s e, (cells.map CellC.s).getD i 0 ∧ cell.ss = ∑ i ∈ Icc s e, (cells.map CellC.ss).getD i 0 := by
  obtain ⟨hc, hcase⟩ := fitCoreC_cases h
  rcases hcase with ⟨h1, rfl⟩ | ⟨pb, h1, hpb, -, rfl⟩
  · exact absurd rfl hne
  · obtain ⟨hsub, h2, h3, h4⟩ := computePrebinsC_spec _ _ _ _ _ hpb
    have hlen : pb.cells.length = pb.splits.length + 1 := by rw [h3]; simp [prebinCells, prebinNumber]
    have hpos : 0 < pb.splits.length := List.length_pos_iff.2 h2
    have hlast := hsolver pb.cells (by omega)
    have hsl := solve_length pb.cells.length (solver pb.cells)
    refine ⟨pb.cells, by omega, h4, rfl, ?_⟩
    generalize solve pb.cells.length (solver pb.cells) = R at hlast hsl ⊢
    have hsel : R.2.count true = (select pb.splits R.2.dropLast).length + 1 := by
      rw [length_select _ _ (by simp [hsl, hlen])]
      obtain ⟨l, hl⟩ := List.getLast?_eq_some_iff.1 hlast
      rw [hl]; simp
    refine ⟨hsel, fun k hk => ?_⟩
    have hk' : k < R.2.count true := by rw [hsel]; exact Nat.lt_succ_of_le hk
    obtain ⟨a, b, hb, hbk, -⟩ := accumBins_bin R.2 hlast hk'
    have hkl : k < (accumCells R.2 pb.cells CellC.zero).length := by rw [accumCells_length _ _ _ hsl]; exact hk'
    refine ⟨a, b, hsl ▸ hb, hbk, (accumCells R.2 pb.cells CellC.zero)[k], ?_, ?_, ?_, ?_⟩
    · rw [accumRows_cells, List.getElem?_append_left (by rw [List.length_map]; exact hkl), List.getElem?_map, List.getElem?_eq_getElem hkl]
      rfl
    · exact accumCells_getElem (g := fun c => ((c.cnt : ℕ) : ℚ)) (by simp [CellC.zero]) (by simp [CellC.add]) hsl hlast hb hbk
        (List.getElem?_eq_getElem hkl)
    · exact accumCells_getElem (g := CellC.s) rfl (by simp [CellC.add]) hsl hlast hb hbk (List.getElem?_eq_getElem hkl)
    · exact accumCells_getElem (g := CellC.ss) rfl (by simp [CellC.add]) hsl hlast hb hbk (List.getElem?_eq_getElem hkl)

end OptBinning
