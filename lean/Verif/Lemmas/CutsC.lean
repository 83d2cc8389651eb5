import Verif.Spec.CutsC
import Verif.Lemmas.Cuts
import Verif.Lemmas.Continuous2
import Verif.Lemmas.ContinuousSolver
import Verif.Lemmas.ContinuousCells

/-!
# Cutting at some of the pre-bin splits is grouping the pre-bins, continuous target (C105)
-/
namespace OptBinning
open Finset Spec

variable {α : Type*} [LinearOrder α]

/-- The binning `sol` of the pre-bins of `inp` is the table of the cut points `cs`; `idx e` is the number of the interval of the bin
which ends in pre-bin `e`. -/
structure CutBinsC (recs : List (RecC α)) (cs : List α) (inp : ContInput) (sol : ℕ → Bool) (idx : ℕ → ℕ) : Prop where
  binning : IsBinning inp.n sol
  num : numBins inp.n sol = cs.length + 1
  le : ∀ s e, IsBin inp.n sol s e → idx e ≤ cs.length
  row : ∀ s e, IsBin inp.n sol s e → binTotal inp.recs s e = ((cutTargets recs cs (idx e)).length : ℤ) ∧
    binTotal inp.sum s e = (cutTargets recs cs (idx e)).sum ∧ binTotal inp.ssum s e = ((cutTargets recs cs (idx e)).map (· ^ 2)).sum
  lt : ∀ s e s' e', IsBin inp.n sol s e → IsBin inp.n sol s' e' → e < e' → idx e < idx e'
  next : ∀ s e s' e', IsBin inp.n sol s e → IsBin inp.n sol s' e' → s' = e + 1 → idx e' = idx e + 1
  surj : ∀ k ≤ cs.length, ∃ s e, IsBin inp.n sol s e ∧ idx e = k
  tot : binMean inp.recs inp.sum 0 (inp.n - 1) = mean (allTargets recs)

/-- Summing over the classes of a partition. -/
theorem sum_classesC {β : Type*} (recs : List β) (g : β → ℚ) (idx : β → ℕ) (n : ℕ) (P : ℕ → Bool) (h : ∀ r ∈ recs, idx r < n) :
    (∑ i ∈ range n, if P i = true then ((recs.filter fun r => idx r == i).map g).sum else 0) = ((recs.filter fun r => P (idx r)).map g).sum := by
  have key := sum_filter_classes (recs.map fun r => (⟨some (idx r), some true, g r⟩ : Rec ℕ)) (fun _ => true) (fun r => r.x.getD 0) n P (by simpa using h)
  simp only [Bool.true_and, List.filter_map, List.map_map] at key
  exact key

theorem unit_cell {recs : List (RecC α)} (hu : ∀ r ∈ recs, r.w = 1) :
    (((cellOf recs).cnt : ℕ) : ℚ) = (recs.map fun _ => (1 : ℚ)).sum ∧ (cellOf recs).s = (recs.map fun r => r.y.getD 0).sum ∧
      (cellOf recs).ss = (recs.map fun r => (r.y.getD 0) ^ 2).sum := by
  have h1 : recs.map RecC.w = recs.map fun _ => (1 : ℚ) := List.map_congr_left fun r hr => hu r hr
  have h2 : (recs.map fun r => r.w * r.y.getD 0) = recs.map fun r => r.y.getD 0 := List.map_congr_left fun r hr => by rw [hu r hr, one_mul]
  refine ⟨?_, ?_, ?_⟩
  · simp only [cellOf, truncWeightC, h1]
    simp
  · simp only [cellOf, h2]
  · simp only [cellOf, h2, List.map_map]; rfl

theorem known_targets {recs : List (RecC α)} (hk : ∀ r ∈ recs, r.y ≠ none) :
    (((recs.filterMap RecC.y).length : ℕ) : ℚ) = (recs.map fun _ => (1 : ℚ)).sum ∧ (recs.filterMap RecC.y).sum = (recs.map fun r => r.y.getD 0).sum ∧
      ((recs.filterMap RecC.y).map (· ^ 2)).sum = (recs.map fun r => (r.y.getD 0) ^ 2).sum := by
  have : recs.filterMap RecC.y = recs.map fun r => r.y.getD 0 := by
    induction recs with
    | nil => rfl
    | cons r recs ih =>
      cases hy : r.y with
      | none => exact absurd hy (hk r (by simp))
      | some y => simp [List.filterMap_cons, hy, ih fun r' hr' => hk r' (by simp [hr'])]
  rw [this]
  exact ⟨by simp, rfl, by rw [List.map_map]; rfl⟩

section
variable {recs : List (RecC α)} {ps : List α} {R : List Bool}

theorem cell_totalC (hclean : ∀ r ∈ recs, r.x ≠ none ∧ r.y ≠ none) (hu : UnitWeights recs) (hsort : ps.Pairwise (· ≤ ·)) (hR : R.length = ps.length + 1)
    {f : CellC → ℚ} {g : RecC α → ℚ} (hfg : ∀ l : List (RecC α), (∀ r ∈ l, r.w = 1) → f (cellOf l) = (l.map g).sum) {s e : ℕ}
    (hb : IsBin R.length (solOf R) s e) :
    ∑ i ∈ Icc s e, ((prebinCells false (ps.length + 1) ps recs).map f).getD i 0 =
      ((recs.filter fun r => digitize false (select ps R.dropLast) r.x == binOf R e).map g).sum := by
  have hidx : ∀ r ∈ recs, digitize false ps r.x < R.length := by
    intro r _
    have := digitize_le false ps r.x
    omega
  have hkey : ∀ r ∈ recs, binOf R (digitize false ps r.x) = digitize false (select ps R.dropLast) r.x := by
    intro r hr
    cases hxv : r.x with
    | none => exact absurd hxv (hclean r hr).1
    | some v =>
      have h5 := countP_select (s := ps) (m := R.dropLast) hsort (by simp [hR]) v
      have h6 : digitize false (select ps R.dropLast) (some v) = binOf R.dropLast (digitize false ps (some v)) := by
        simpa [digitize, binOf] using h5
      rw [h6, binOf_dropLast]
      have := digitize_le false ps (some v)
      omega
  have key := sum_classesC recs g (fun r => digitize false ps r.x) R.length (fun i => binOf R i == binOf R e) hidx
  have h1 : ∑ i ∈ Icc s e, ((prebinCells false (ps.length + 1) ps recs).map f).getD i 0 =
      ∑ i ∈ range R.length, if (binOf R i == binOf R e) = true then ((recs.filter fun r => digitize false ps r.x == i).map g).sum else 0 := by
    rw [← sum_filter]
    have : (range R.length).filter (fun i => (binOf R i == binOf R e) = true) = Icc s e := by
      ext i
      simp only [mem_filter, mem_range, mem_Icc, beq_iff_eq, binOf_iff hb]
      constructor
      · exact fun h => h.2
      · exact fun h => ⟨by have := hb.2.1; omega, h⟩
    rw [this]
    refine sum_congr rfl fun i hi => ?_
    have hi' : i < ps.length + 1 := by have := hb.2.1; have := (mem_Icc.1 hi).2; omega
    rw [← hfg _ fun r hr => hu r (List.mem_filter.1 hr).1]
    simp [prebinCells, List.getD, hi']
  rw [h1, key]
  congr 2
  refine List.filter_congr fun r hr => ?_
  rw [hkey r hr]

theorem cell_all {f : CellC → ℚ} {g : RecC α → ℚ} (hu : UnitWeights recs)
    (hfg : ∀ l : List (RecC α), (∀ r ∈ l, r.w = 1) → f (cellOf l) = (l.map g).sum) :
    ∑ i ∈ Icc 0 ps.length, ((prebinCells false (ps.length + 1) ps recs).map f).getD i 0 = (recs.map g).sum := by
  have hidx : ∀ r ∈ recs, digitize false ps r.x < ps.length + 1 := by
    intro r _
    have := digitize_le false ps r.x
    omega
  have key := sum_classesC recs g (fun r => digitize false ps r.x) (ps.length + 1) (fun _ => true) hidx
  have hI : Icc 0 ps.length = range (ps.length + 1) := by ext i; simp
  rw [hI]
  simp only [if_true, List.filter_true] at key
  rw [← key]
  refine sum_congr rfl fun i hi => ?_
  rw [← hfg _ fun r hr => hu r (List.mem_filter.1 hr).1]
  simp [prebinCells, List.getD, mem_range.1 hi]

theorem cutTargets_eq (hclean : ∀ r ∈ recs, r.x ≠ none ∧ r.y ≠ none) {cs : List α} (hsort : cs.Pairwise (· ≤ ·)) (k : ℕ) :
    cutTargets recs cs k = (recs.filter fun r => digitize false cs r.x == k).filterMap RecC.y := by
  classical
  unfold cutTargets targetsOf
  congr 1
  refine List.filter_congr fun r hr => ?_
  rw [Bool.eq_iff_iff, decide_eq_true_eq, beq_iff_eq]
  cases hxv : r.x with
  | none => exact absurd hxv (hclean r hr).1
  | some v => rw [inInterval_iff hsort]; simp [hxv]

/-- Cutting at the kept splits. -/
theorem cutBinsC (hclean : ∀ r ∈ recs, r.x ≠ none ∧ r.y ≠ none) (hu : UnitWeights recs) (hsort : ps.Pairwise (· ≤ ·)) (hR : R.length = ps.length + 1)
    (hlast : R.getLast? = some true) (c : SolverCfgC) :
    CutBinsC recs (select ps R.dropLast) (c.input (prebinCells false (ps.length + 1) ps recs)) (solOf R) (binOf R) := by
  set cells := prebinCells false (ps.length + 1) ps recs with hcells
  have hn : (c.input cells).n = R.length := by simp [SolverCfgC.input, ContInput.n, cells, prebinCells, hR]
  have hsel : (select ps R.dropLast).Pairwise (· ≤ ·) := hsort.sublist (select_sublist _ _)
  have hcount : R.count true = (select ps R.dropLast).length + 1 := by
    rw [length_select _ _ (by simp [hR])]
    obtain ⟨l, hl⟩ := List.getLast?_eq_some_iff.1 hlast
    rw [hl]; simp
  have hlastT : solOf R (R.length - 1) = true := by
    obtain ⟨l, hl⟩ := List.getLast?_eq_some_iff.1 hlast
    rw [hl]
    simp [solOf]
  have hrec : ∀ s e, ((binTotal (c.input cells).recs s e : ℤ) : ℚ) = ∑ i ∈ Icc s e, (cells.map fun d => ((d.cnt : ℕ) : ℚ)).getD i 0 := by
    intro s e
    unfold binTotal ContInput.recs
    push_cast
    refine sum_congr rfl fun i _ => ?_
    by_cases hi : i < cells.length <;> simp [SolverCfgC.input, List.getD, hi]
  have hsum : ∀ s e, binTotal (c.input cells).sum s e = ∑ i ∈ Icc s e, (cells.map CellC.s).getD i 0 := fun s e => rfl
  have hssum : ∀ s e, binTotal (c.input cells).ssum s e = ∑ i ∈ Icc s e, (cells.map CellC.ss).getD i 0 := fun s e => rfl
  refine ⟨⟨by omega, by rw [hn]; exact hlastT⟩, ?_, ?_, ?_, ?_, ?_, ?_, ?_⟩
  · rw [numBins_eq, hn, binOf_length, hcount]
  · intro s e hb
    have h1 := binOf_succ R e
    rw [hb.2.2.1] at h1
    have h2 := binOf_mono R (show e + 1 ≤ R.length by have := hb.2.1; omega)
    rw [binOf_length, hcount] at h2
    simp at h1
    omega
  · intro s e hb
    rw [hn] at hb
    have hkn : ∀ r ∈ recs.filter (fun r => digitize false (select ps R.dropLast) r.x == binOf R e), r.y ≠ none :=
      fun r hr => (hclean r (List.mem_filter.1 hr).1).2
    obtain ⟨t1, t2, t3⟩ := known_targets hkn
    rw [cutTargets_eq hclean hsel]
    refine ⟨?_, ?_, ?_⟩
    · have : ((binTotal (c.input cells).recs s e : ℤ) : ℚ) = _ := (hrec s e).trans (cell_totalC hclean hu hsort hR (fun l hl => (unit_cell hl).1) hb)
      rw [← t1] at this
      exact_mod_cast this
    · rw [hsum, t2]; exact cell_totalC hclean hu hsort hR (fun l hl => (unit_cell hl).2.1) hb
    · rw [hssum, t3]; exact cell_totalC hclean hu hsort hR (fun l hl => (unit_cell hl).2.2) hb
  · intro s e s' e' hb hb' hlt
    have h1 := binOf_succ R e
    rw [hb.2.2.1] at h1
    have h2 := binOf_mono R (show e + 1 ≤ e' by omega)
    simp at h1
    omega
  · rintro s e s' e' hb hb' rfl
    have h1 := binOf_succ R e
    rw [hb.2.2.1] at h1
    have h2 := binOf_const hb' hb'.1 le_rfl
    simp at h1
    omega
  · intro k hk
    obtain ⟨s, e, hb, hk', -⟩ := accumBins_bin R hlast (k := k) (by rw [hcount]; omega)
    exact ⟨s, e, hn ▸ hb, hk'⟩
  · obtain ⟨t1, t2, -⟩ := known_targets (recs := recs) fun r hr => (hclean r hr).2
    have hl : (c.input cells).n - 1 = ps.length := by omega
    unfold binMean mean allTargets
    rw [hl, hrec, hsum, t1, t2]
    congr 1
    · exact cell_all hu fun l hl => (unit_cell hl).2.1
    · exact cell_all hu fun l hl => (unit_cell hl).1
end

section
variable {recs : List (RecC α)} {cs : List α} {inp : ContInput} {sol : ℕ → Bool} {idx : ℕ → ℕ}

theorem CutBinsC.mean (h : CutBinsC recs cs inp sol idx) {s e : ℕ} (hb : IsBin inp.n sol s e) :
    binMean inp.recs inp.sum s e = cutMean recs cs (idx e) := by
  obtain ⟨h1, h2, -⟩ := h.row s e hb
  unfold binMean cutMean Spec.mean
  rw [h1, h2]; push_cast; rfl

theorem CutBinsC.filled (h : CutBinsC recs cs inp sol idx) (hw : inp.Wf) {s e : ℕ} (hb : IsBin inp.n sol s e) : cutTargets recs cs (idx e) ≠ [] := by
  intro h0
  have h1 := (h.row s e hb).1
  rw [h0] at h1
  have : 0 < binTotal inp.recs s e := by
    refine Finset.sum_pos (fun i hi => ?_) ⟨s, mem_Icc.2 ⟨le_rfl, hb.1⟩⟩
    have hil : i < inp.records.length := lt_of_le_of_lt (mem_Icc.1 hi).2 hb.2.1
    unfold ContInput.recs
    rw [List.getD_eq_getElem?_getD, List.getElem?_eq_getElem hil]
    exact_mod_cast hw.nonempty _ (List.getElem_mem hil)
  simp at h1
  omega

theorem CutBinsC.std (h : CutBinsC recs cs inp sol idx) (hw : inp.Wf) {s e : ℕ} (hb : IsBin inp.n sol s e) : binStd inp s e = cutStd recs cs (idx e) := by
  obtain ⟨h1, h2, h3⟩ := h.row s e hb
  unfold binStd cutStd
  rw [variance_eq (h.filled hw hb), h.mean hb, h1, h3]
  unfold cutMean Spec.mean
  push_cast
  rfl

/-- The distance of the table of the cut points is the total over the bins. -/
theorem CutBinsC.distance (h : CutBinsC recs cs inp sol idx) : l1Distance inp.n sol inp.recs inp.sum = cutDistance recs cs := by
  classical
  unfold l1Distance totalOverBins cutDistance
  refine Finset.sum_bij (fun p _ => idx p.2) ?_ ?_ ?_ ?_
  · rintro ⟨s, e⟩ hp
    have hb := (Finset.mem_filter.1 hp).2
    have := h.le s e hb
    simp only [mem_range]; omega
  · rintro ⟨s, e⟩ hp ⟨s', e'⟩ hp' heq
    have hb := (Finset.mem_filter.1 hp).2
    have hb' := (Finset.mem_filter.1 hp').2
    simp only at heq hb hb'
    rcases Nat.lt_trichotomy e e' with hlt | rfl | hlt
    · have := h.lt _ _ _ _ hb hb' hlt; omega
    · have := Iso.bin_unique hb hb' hb.1 le_rfl hb'.1 le_rfl
      rw [this.1]
    · have := h.lt _ _ _ _ hb' hb hlt; omega
  · intro k hk
    obtain ⟨s, e, hb, hk'⟩ := h.surj k (by have := mem_range.1 hk; omega)
    refine ⟨(s, e), ?_, hk'⟩
    refine Finset.mem_filter.2 ⟨?_, hb⟩
    have := hb.2.1; have := hb.1
    simp only [mem_product, mem_range]; omega
  · rintro ⟨s, e⟩ hp
    have hb := (Finset.mem_filter.1 hp).2
    simp only
    rw [h.mean hb, h.tot]

theorem CutBinsC.threshold (h : CutBinsC recs cs inp sol idx) (c : ℕ) : ∃ c', ∀ s e, IsBin inp.n sol s e → (e < c' ↔ idx e < c) := by
  by_cases hc : c ≤ cs.length
  · obtain ⟨s₀, e₀, hb₀, hk⟩ := h.surj c hc
    refine ⟨e₀, fun s e hb => ?_⟩
    rcases Nat.lt_trichotomy e e₀ with hlt | rfl | hlt
    · have := h.lt _ _ _ _ hb hb₀ hlt; omega
    · omega
    · have := h.lt _ _ _ _ hb₀ hb hlt; omega
  · refine ⟨inp.n, fun s e hb => ?_⟩
    have := h.le _ _ hb
    have := hb.2.1
    omega

end

end OptBinning
