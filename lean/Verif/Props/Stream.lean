import Verif.Lemmas.Stream3

/-!
# C68–C72: streaming binning (`OptimalBinningSketch`, numerical variable, `sketch="gk"`)

A history is a list of calls of `add` and `solve` on a new object; `streamed ops` are all records given to `add`.  The statements hold for
every later call of `solve`, with any solver that respects the constraints it is given.
-/
namespace OptBinning
open Finset
open Spec (usedValues specialCount missingCount classCount IsSpecialValue numLe numLt HasRankWithin)
variable {α : Type*} [LinearOrder α]

section
variable {cfg : StreamCfg α} {c : SolverCfg} {solver : Solver} {ops : List (StreamOp α)} {f : StreamFit α}

/-- The rows of the table that belong to bins. -/
def Fitted.regular (f : Fitted α) (ev : Bool) : List ℕ := (f.column ev).take (f.splits.length + 1)

/-- `solve_result` for a history. -/
theorem solve_history (heps : 0 < cfg.eps) (hsc : ¬ IsSpecialValue cfg.sc none) (hr : Respects c solver)
    (hf : ((Stream.run cfg ops).solve cfg solver).1 = .ok f) :
    ∃ (K : Bool → GK α) (cand pb : List α), (∀ ev, Filled cfg.eps (K ev) (usedValues cfg.sc ev (streamed ops))) ∧
      cand.length = cfg.maxPrebins - 1 ∧ cand.Pairwise (· ≤ ·) ∧ pb.Sublist cand ∧
      (usedValues cfg.sc true (streamed ops) ++ usedValues cfg.sc false (streamed ops) ≠ [] → ∀ (i : ℕ) (hi : i < cand.length),
        HasRankWithin (usedValues cfg.sc true (streamed ops) ++ usedValues cfg.sc false (streamed ops)) cand[i]
        (⌊((i + 1 : ℕ) : ℚ) / cfg.maxPrebins *
          (((usedValues cfg.sc true (streamed ops) ++ usedValues cfg.sc false (streamed ops)).length : ℚ) - 1)⌋ + 1)
        ⌊3 * cfg.eps * (((usedValues cfg.sc true (streamed ops) ++ usedValues cfg.sc false (streamed ops)).length : ℚ) - 1)⌋) ∧
      (cfg.keepPure = false → ∀ ev, ∀ x ∈ (K ev).counts pb, 0 < x) ∧ (cfg.keepPure = true → pb = cand) ∧
      f.nPrebins = pb.length + 1 ∧ f.refinements = 0 ∧
      ((pb = [] ∧ f.table.status = "OPTIMAL" ∧ f.table.splits = [] ∧
          ∀ ev, f.table.column ev =
            [classCount ev (streamed ops), specialCount cfg.sc ev (streamed ops), missingCount ev (streamed ops)]) ∨
        (pb ≠ [] ∧ ∃ sol : List Bool, sol.length = pb.length + 1 ∧ sol.getLast? = some true ∧
          solve (pb.length + 1) (solver ((K false).counts pb) ((K true).counts pb)) = (f.table.status, sol) ∧
          f.table.splits = select pb sol.dropLast ∧
          ∀ ev, f.table.column ev = (K ev).counts f.table.splits ++
            [specialCount cfg.sc ev (streamed ops), missingCount ev (streamed ops)])) := by
  obtain ⟨K, cand, pb, h1, h2, h3, h4, h5, h6, h7, h8, h9, h10⟩ :=
    solve_result heps hsc (holding_run cfg heps ops).1 (fun nev ev hn => hr.last nev ev hn) hf
  refine ⟨K, cand, pb, h1, h2, h3, h4, h5, h6, h7, h8, h9, ?_⟩
  rcases h10 with h | ⟨hp, sol, s1, s2, s3, s4, s5⟩
  · exact Or.inl h
  · refine Or.inr ⟨hp, sol, s1, s2, s3, s4, fun ev => ?_⟩
    rw [s5 ev, s4, accum_counts ((h1 ev).weighted heps) (h3.sublist h4) s1 s2]

/-! ## C68: the table accounts for every record -/

/-- C68: special and missing records have their own rows after the regular ones, with exact counts. -/
theorem C68_special_missing (heps : 0 < cfg.eps) (hsc : ¬ IsSpecialValue cfg.sc none) (hr : Respects c solver)
    (hf : ((Stream.run cfg ops).solve cfg solver).1 = .ok f) (ev : Bool) :
    f.table.column ev = f.table.regular ev ++
      [specialCount cfg.sc ev (streamed ops), missingCount ev (streamed ops)] ∧ (f.table.regular ev).length = f.table.splits.length + 1 := by
  obtain ⟨K, cand, pb, h1, h2, h3, h4, h5, h6, h7, h8, h9, h10⟩ := solve_history heps hsc hr hf
  unfold Fitted.regular
  rcases h10 with ⟨-, -, hs, hc⟩ | ⟨hp, sol, s1, s2, s3, s4, s5⟩
  · rw [hc ev, hs]; exact ⟨rfl, rfl⟩
  · rw [s5 ev, List.take_left' (length_counts _ _)]
    exact ⟨rfl, length_counts _ _⟩

/-- C68: if there is more than one pre-bin, or no record is missing or special, the regular rows of a class add up to its used records … -/
theorem C68_regular_total_partial (heps : 0 < cfg.eps) (hsc : ¬ IsSpecialValue cfg.sc none) (hr : Respects c solver)
    (hf : ((Stream.run cfg ops).solve cfg solver).1 = .ok f) (ev : Bool)
    (h : 1 < f.nPrebins ∨ specialCount cfg.sc ev (streamed ops) + missingCount ev (streamed ops) = 0) :
    (f.table.regular ev).sum = (usedValues cfg.sc ev (streamed ops)).length := by
  obtain ⟨K, cand, pb, h1, h2, h3, h4, h5, h6, h7, h8, h9, h10⟩ := solve_history heps hsc hr hf
  unfold Fitted.regular
  rcases h10 with ⟨hp, -, hs, hc⟩ | ⟨hp, sol, s1, s2, s3, s4, s5⟩
  · have := class_parts cfg.sc hsc ev (streamed ops)
    rw [hc ev, hs]
    rw [h8, hp] at h
    simp at h ⊢
    omega
  · rw [s5 ev, List.take_left' (length_counts _ _), (h1 ev).counts_sum heps]

/-- C68: … and the whole column adds up to the number of records of the class. -/
theorem C68_total_partial (heps : 0 < cfg.eps) (hsc : ¬ IsSpecialValue cfg.sc none) (hr : Respects c solver)
    (hf : ((Stream.run cfg ops).solve cfg solver).1 = .ok f) (ev : Bool)
    (h : 1 < f.nPrebins ∨ specialCount cfg.sc ev (streamed ops) + missingCount ev (streamed ops) = 0) :
    (f.table.column ev).sum = classCount ev (streamed ops) := by
  rw [(C68_special_missing heps hsc hr hf ev).1, List.sum_append, C68_regular_total_partial heps hsc hr hf ev h,
    ← class_parts cfg.sc hsc ev (streamed ops)]
  simp
  omega

/-- C68 finding: with a single pre-bin its row contains the missing and special records too, which are counted again in their own rows. -/
theorem C68_single_prebin (heps : 0 < cfg.eps) (hsc : ¬ IsSpecialValue cfg.sc none) (hr : Respects c solver)
    (hf : ((Stream.run cfg ops).solve cfg solver).1 = .ok f) (hn : f.nPrebins = 1) (ev : Bool) :
    f.table.splits = [] ∧ f.table.column ev =
      [classCount ev (streamed ops), specialCount cfg.sc ev (streamed ops), missingCount ev (streamed ops)] := by
  obtain ⟨K, cand, pb, h1, h2, h3, h4, h5, h6, h7, h8, h9, h10⟩ := solve_history heps hsc hr hf
  rcases h10 with ⟨-, -, hs, hc⟩ | ⟨hp, -⟩
  · exact ⟨hs, hc ev⟩
  · have := List.length_pos_iff.2 hp
    omega

/-! ## C69: splits and accuracy -/

/-- C69: the splits are ordered and belong to `max_n_prebins - 1` candidates, of which number `i` is a used value whose rank differs from that of the
`(i+1)/max_n_prebins` quantile by at most `3 * eps * (n - 1)`. -/
theorem C69_splits (heps : 0 < cfg.eps) (hsc : ¬ IsSpecialValue cfg.sc none) (hr : Respects c solver)
    (hf : ((Stream.run cfg ops).solve cfg solver).1 = .ok f) (vs : List α)
    (hvs : vs = usedValues cfg.sc true (streamed ops) ++ usedValues cfg.sc false (streamed ops)) (hne : vs ≠ []) :
    f.table.splits.Pairwise (· ≤ ·) ∧ ∃ cand : List α, f.table.splits.Sublist cand ∧ cand.length = cfg.maxPrebins - 1 ∧
      ∀ (i : ℕ) (hi : i < cand.length), HasRankWithin vs cand[i]
        (⌊((i + 1 : ℕ) : ℚ) / cfg.maxPrebins * ((vs.length : ℚ) - 1)⌋ + 1) ⌊3 * cfg.eps * ((vs.length : ℚ) - 1)⌋ := by
  obtain ⟨K, cand, pb, h1, h2, h3, h4, h5, h6, h7, h8, h9, h10⟩ := solve_history heps hsc hr hf
  subst hvs
  have hsub : f.table.splits.Sublist cand := by
    rcases h10 with ⟨-, -, hs, -⟩ | ⟨hp, sol, s1, s2, s3, s4, s5⟩
    · rw [hs]; exact List.nil_sublist _
    · rw [s4]; exact (select_sublist _ _).trans h4
  exact ⟨h3.sublist hsub, cand, hsub, h2, h5 hne⟩

/-- The sketch of a filled class is accurate at every split. -/
theorem Filled.cumulative {eps : ℚ} (heps : 0 < eps) {k : GK α} {vs : List α} (h : Filled eps k vs) {splits : List α}
    (hsp : splits.Pairwise (· ≤ ·)) (hne : vs ≠ []) (i : ℕ) (hi : i < splits.length) :
    ((k.counts splits).take (i + 1)).sum ≤ numLe vs splits[i] ∧
    (numLe vs splits[i] : ℤ) ≤ ((k.counts splits).take (i + 1)).sum + 2 * ⌊eps * ((vs.length : ℚ) - 1)⌋ := by
  have hw := h.weighted heps
  have hnn : ∀ x ∈ k.bins splits, 0 ≤ x := by
    intro x hx
    simp only [GK.bins, List.mem_map] at hx
    obtain ⟨i, -, rfl⟩ := hx
    apply List.sum_nonneg
    intro y hy
    simp only [List.mem_map, List.mem_filter] at hy
    obtain ⟨e, ⟨he, -⟩, rfl⟩ := hy
    exact (hw e he).le
  have hcast : ∀ l : List ℤ, (∀ x ∈ l, 0 ≤ x) → (((l.map Int.toNat).sum : ℕ) : ℤ) = l.sum := by
    intro l
    induction l with
    | nil => simp
    | cons a l ih =>
      intro h
      simp only [List.map_cons, List.sum_cons, Nat.cast_add]
      rw [ih fun x hx => h x (List.mem_cons_of_mem _ hx), Int.toNat_of_nonneg (h a (by simp))]
  have heq : ((((k.counts splits).take (i + 1)).sum : ℕ) : ℤ) = ((k.bins splits).take (i + 1)).sum := by
    rw [GK.counts, ← List.map_take, hcast _ fun x hx => hnn x (List.mem_of_mem_take hx)]
  obtain ⟨gops, rfl, rfl⟩ := h
  obtain ⟨a, b⟩ := C40_bins_accuracy eps heps gops splits hsp i hi hne
  rw [← heq] at a b
  exact ⟨by exact_mod_cast a, b⟩

/-- C69: the regular rows of a class, added up to split `i`, give the number of used records with a value up to that split, never too many and at
most `2 * eps * (n - 1)` too few, where `n` is the number of used records of the class. -/
theorem C69_cumulative (heps : 0 < cfg.eps) (hsc : ¬ IsSpecialValue cfg.sc none) (hr : Respects c solver)
    (hf : ((Stream.run cfg ops).solve cfg solver).1 = .ok f) (ev : Bool) (i : ℕ) (hi : i < f.table.splits.length) :
    ((f.table.regular ev).take (i + 1)).sum ≤ numLe (usedValues cfg.sc ev (streamed ops)) f.table.splits[i] ∧
    (numLe (usedValues cfg.sc ev (streamed ops)) f.table.splits[i] : ℤ) ≤ ((f.table.regular ev).take (i + 1)).sum +
      2 * ⌊cfg.eps * (((usedValues cfg.sc ev (streamed ops)).length - 1 : ℕ) : ℚ)⌋ := by
  obtain ⟨K, cand, pb, h1, h2, h3, h4, h5, h6, h7, h8, h9, h10⟩ := solve_history heps hsc hr hf
  rcases h10 with ⟨hp, -, hs, hc⟩ | ⟨hp, sol, s1, s2, s3, s4, s5⟩
  · rw [hs] at hi; simp at hi
  · have hs : f.table.splits.Pairwise (· ≤ ·) := by rw [s4]; exact h3.sublist ((select_sublist _ _).trans h4)
    have hreg : f.table.regular ev = (K ev).counts f.table.splits := by
      unfold Fitted.regular; rw [s5 ev, List.take_left' (length_counts _ _)]
    rw [hreg]
    by_cases hne : usedValues cfg.sc ev (streamed ops) = []
    · have hz := (h1 ev).counts_sum heps f.table.splits
      rw [hne] at hz ⊢
      have hle : (((K ev).counts f.table.splits).take (i + 1)).sum ≤ ((K ev).counts f.table.splits).sum :=
        List.Sublist.sum_le_sum (List.take_sublist _ _) (by simp)
      simp only [List.length_nil] at hz
      rw [show (((K ev).counts f.table.splits).take (i + 1)).sum = 0 by omega]
      simp [numLe]
    · have := (h1 ev).cumulative heps hs hne i hi
      have hl := List.length_pos_iff_ne_nil.2 hne
      rw [Nat.cast_sub hl]
      simpa using this

/-- C69: with more than one pre-bin every single row is within `2 * eps * (n - 1)` of the number of used records of the class whose value lies between
the two neighbouring splits (the left one excluded). -/
theorem C69_row (heps : 0 < cfg.eps) (hsc : ¬ IsSpecialValue cfg.sc none) (hr : Respects c solver)
    (hf : ((Stream.run cfg ops).solve cfg solver).1 = .ok f) (ev : Bool) (h2 : 1 < f.nPrebins) (k : ℕ) (hk : k ≤ f.table.splits.length) :
    |((((f.table.column ev).getD k 0 : ℕ) : ℤ) - Spec.numBetween f.table.splits k (usedValues cfg.sc ev (streamed ops)))| ≤
      2 * ⌊cfg.eps * (((usedValues cfg.sc ev (streamed ops)).length - 1 : ℕ) : ℚ)⌋ := by
  set vs := usedValues cfg.sc ev (streamed ops) with hvs
  set E : ℤ := 2 * ⌊cfg.eps * ((vs.length - 1 : ℕ) : ℚ)⌋ with hE
  have hE0 : 0 ≤ E := by
    have : 0 ≤ ⌊cfg.eps * ((vs.length - 1 : ℕ) : ℚ)⌋ := Int.floor_nonneg.2 (by positivity)
    omega
  obtain ⟨hcol, hlen⟩ := C68_special_missing heps hsc hr hf ev
  have htot := C68_regular_total_partial heps hsc hr hf ev (Or.inl h2)
  have hcum := C69_cumulative heps hsc hr hf ev
  have hsp : f.table.splits.Pairwise (· ≤ ·) := by
    obtain ⟨K, cand, pb, h1, h2, h3, h4, h5, h6, h7, h8, h9, h10⟩ := solve_history heps hsc hr hf
    rcases h10 with ⟨-, -, hs, -⟩ | ⟨hp, sol, s1, s2, s3, s4, s5⟩
    · rw [hs]; exact .nil
    · rw [s4]; exact h3.sublist ((select_sublist _ _).trans h4)
  rw [← hvs] at hcum htot
  rw [hcol, List.getD_append _ _ _ _ (by omega)]
  generalize hR : f.table.regular ev = R at hcum htot hlen
  generalize f.table.splits = sp at *
  -- cumulative numbers
  have hC : ∀ i ≤ sp.length + 1, ((R.take i).sum : ℤ) ≤ Spec.numUpTo sp i vs ∧ (Spec.numUpTo sp i vs : ℤ) ≤ (R.take i).sum + E := by
    intro i hi
    rcases i with _ | i
    · simp [Spec.numUpTo, hE0]
    · by_cases hi' : i < sp.length
      · obtain ⟨a, b⟩ := hcum i hi'
        simp only [Spec.numUpTo, List.getElem?_eq_getElem hi']
        exact ⟨by exact_mod_cast a, b⟩
      · have : i = sp.length := by omega
        subst this
        rw [List.take_of_length_le (by omega), htot]
        simp [Spec.numUpTo, hE0]
  have hT := Spec.numUpTo_succ hsp k vs
  have hRk : (R.take (k + 1)).sum = (R.take k).sum + R.getD k 0 := by
    rw [List.take_add_one, List.getD_eq_getElem?_getD]
    cases R[k]? <;> simp
  obtain ⟨a1, a2⟩ := hC k (by omega)
  obtain ⟨b1, b2⟩ := hC (k + 1) (by omega)
  rw [hT, if_pos hk] at b1 b2
  rw [hRk] at b1 b2
  push_cast at b1 b2 a1 a2
  rw [abs_le]
  constructor <;> omega

end
end OptBinning
