import Verif.Spec.Cuts
import Verif.Lemmas.Table
import Verif.Lemmas.Fit3
import Verif.Lemmas.Optimal

/-!
# Cutting at some of the pre-bin splits is grouping the pre-bins (C103)
-/
namespace OptBinning
open Finset Spec

variable {α : Type*} [LinearOrder α]

/-- The binning `sol` of `n` pre-bins with counts `ne`, `ev` is the table of the cut points `cs`; `idx e` is the number of the
interval of the bin which ends in pre-bin `e`. -/
structure CutBins (recs : List (Rec α)) (cs : List α) (n : ℕ) (sol : ℕ → Bool) (ne ev : ℕ → ℤ) (idx : ℕ → ℕ) : Prop where
  binning : IsBinning n sol
  num : numBins n sol = cs.length + 1
  le : ∀ s e, IsBin n sol s e → idx e ≤ cs.length
  rowNe : ∀ s e, IsBin n sol s e → ((binTotal ne s e : ℤ) : ℚ) = cutWeight recs cs false (idx e)
  rowEv : ∀ s e, IsBin n sol s e → ((binTotal ev s e : ℤ) : ℚ) = cutWeight recs cs true (idx e)
  lt : ∀ s e s' e', IsBin n sol s e → IsBin n sol s' e' → e < e' → idx e < idx e'
  next : ∀ s e s' e', IsBin n sol s e → IsBin n sol s' e' → s' = e + 1 → idx e' = idx e + 1
  surj : ∀ k ≤ cs.length, ∃ s e, IsBin n sol s e ∧ idx e = k
  totNe : ((binTotal ne 0 (n - 1) : ℤ) : ℚ) = classWeight recs false
  totEv : ((binTotal ev 0 (n - 1) : ℤ) : ℚ) = classWeight recs true

theorem sublist_mask {β : Type*} {a b : List β} (h : a.Sublist b) : ∃ m : List Bool, m.length = b.length ∧ select b m = a := by
  induction h with
  | slnil => exact ⟨[], rfl, rfl⟩
  | cons x _ ih =>
    obtain ⟨m, h1, h2⟩ := ih
    exact ⟨false :: m, by simp [h1], by simpa [select] using h2⟩
  | cons_cons x _ ih =>
    obtain ⟨m, h1, h2⟩ := ih
    exact ⟨true :: m, by simp [h1], by simpa [select] using h2⟩

/-- Total of the pre-bin counts over a bin of the solution. -/
theorem prebin_total {recs : List (Rec α)} {ps : List α} {R : List Bool} (hclean : ∀ r ∈ recs, r.x ≠ none ∧ r.y ≠ none) (hw : WholeWeights recs)
    (hsort : ps.Pairwise (· ≤ ·)) (hR : R.length = ps.length + 1) (event : Bool) {s e : ℕ} (hb : IsBin R.length (solOf R) s e) :
    ((∑ i ∈ Icc s e, (prebinCounts false (ps.length + 1) ps recs event).getD i 0 : ℕ) : ℚ) = cutWeight recs (select ps R.dropLast) event (binOf R e) := by
  classical
  have hsel : (select ps R.dropLast).Pairwise (· ≤ ·) := hsort.sublist (select_sublist _ _)
  have hidx : ∀ r ∈ recs, digitize false ps r.x < R.length := by
    intro r _
    have := digitize_le false ps r.x
    omega
  have hkey : ∀ r ∈ recs, binOf R (digitize false ps r.x) = digitize false (select ps R.dropLast) r.x := by
    intro r hr
    cases hxv : r.x with
    | none => exact absurd hxv (hclean r hr).1
    | some v =>
      have h5 := countP_select (s := ps) (m := R.dropLast) hsort (by simp [hR]) v
      have h6 : digitize false (select ps R.dropLast) (some v) = binOf R.dropLast (digitize false ps (some v)) := by
        simpa [digitize, binOf] using h5
      rw [h6, binOf_dropLast]
      have := digitize_le false ps (some v)
      omega
  have key := sum_filter_classes recs (fun r => r.isEvent == event) (fun r => digitize false ps r.x) R.length (fun i => binOf R i == binOf R e) hidx
  have h1 : ((∑ i ∈ Icc s e, (prebinCounts false (ps.length + 1) ps recs event).getD i 0 : ℕ) : ℚ) =
      ∑ i ∈ range R.length, if (binOf R i == binOf R e) = true then
        ((recs.filter fun r => (r.isEvent == event) && digitize false ps r.x == i).map Rec.w).sum else 0 := by
    rw [← sum_filter]
    have : (range R.length).filter (fun i => (binOf R i == binOf R e) = true) = Icc s e := by
      ext i
      simp only [mem_filter, mem_range, mem_Icc, beq_iff_eq, binOf_iff hb]
      constructor
      · exact fun h => h.2
      · exact fun h => ⟨by have := hb.2.1; omega, h⟩
    rw [this]
    push_cast
    refine sum_congr rfl fun i hi => ?_
    have hi' : i < ps.length + 1 := by have := hb.2.1; have := (mem_Icc.1 hi).2; omega
    rw [prebinCounts_getD _ _ _ _ _ hi', truncWeight_whole (wholeWeights_filter hw _)]
  rw [h1, key]
  unfold cutWeight weight
  congr 2
  refine List.filter_congr fun r hr => ?_
  have h2 := isEvent_beq r (hclean r hr).2 event
  rw [Bool.eq_iff_iff]
  simp only [Bool.and_eq_true, h2, beq_iff_eq, decide_eq_true_eq]
  refine and_congr Iff.rfl ?_
  rw [hkey r hr]
  cases hxv : r.x with
  | none => exact absurd hxv (hclean r hr).1
  | some v => rw [inInterval_iff hsel]; simp

/-- Total of all pre-bin counts. -/
theorem prebin_all {recs : List (Rec α)} {ps : List α} (hclean : ∀ r ∈ recs, r.x ≠ none ∧ r.y ≠ none) (hw : WholeWeights recs) (event : Bool) :
    ((∑ i ∈ Icc 0 ps.length, (prebinCounts false (ps.length + 1) ps recs event).getD i 0 : ℕ) : ℚ) = classWeight recs event := by
  have hidx : ∀ r ∈ recs, digitize false ps r.x < ps.length + 1 := by
    intro r _
    have := digitize_le false ps r.x
    omega
  have key := sum_filter_classes recs (fun r => r.isEvent == event) (fun r => digitize false ps r.x) (ps.length + 1) (fun _ => true) hidx
  have hI : Icc 0 ps.length = range (ps.length + 1) := by ext i; simp
  rw [hI]
  unfold classWeight weight
  have : ((recs.filter fun r => decide (r.y = some event)).map fun r => r.w).sum =
      ((recs.filter fun r => (r.isEvent == event) && true).map Rec.w).sum := by
    congr 2
    refine List.filter_congr fun r hr => ?_
    have h2 := isEvent_beq r (hclean r hr).2 event
    rw [Bool.eq_iff_iff]
    simp [h2]
  rw [this, ← key]
  push_cast
  refine sum_congr rfl fun i hi => ?_
  rw [prebinCounts_getD _ _ _ _ _ (mem_range.1 hi), truncWeight_whole (wholeWeights_filter hw _)]
  simp

theorem binTotal_cast (l : List ℕ) (s e : ℕ) : binTotal (fun k => ((l.getD k 0 : ℕ) : ℤ)) s e = ((∑ i ∈ Icc s e, l.getD i 0 : ℕ) : ℤ) := by
  unfold binTotal; push_cast; rfl

theorem getLast_append_true (m : List Bool) : (m ++ [true]).getLast? = some true := by simp

/-- Cutting at the kept splits. -/
theorem cutBins {recs : List (Rec α)} {ps : List α} {R : List Bool} (hclean : ∀ r ∈ recs, r.x ≠ none ∧ r.y ≠ none) (hw : WholeWeights recs)
    (hsort : ps.Pairwise (· ≤ ·)) (hR : R.length = ps.length + 1) (hlast : R.getLast? = some true) {n : ℕ} (hn : n = ps.length + 1) :
    CutBins recs (select ps R.dropLast) n (solOf R) (fun k => (((prebinCounts false (ps.length + 1) ps recs false).getD k 0 : ℕ) : ℤ))
      (fun k => (((prebinCounts false (ps.length + 1) ps recs true).getD k 0 : ℕ) : ℤ)) (binOf R) := by
  have hn' : n = R.length := by omega
  have hcount : R.count true = (select ps R.dropLast).length + 1 := by
    rw [length_select _ _ (by simp [hR])]
    obtain ⟨l, hl⟩ := List.getLast?_eq_some_iff.1 hlast
    rw [hl]; simp
  have hlastT : solOf R (n - 1) = true := by
    obtain ⟨l, hl⟩ := List.getLast?_eq_some_iff.1 hlast
    rw [hn', hl]
    simp [solOf]
  refine ⟨⟨by omega, hlastT⟩, ?_, ?_, ?_, ?_, ?_, ?_, ?_, ?_, ?_⟩
  · rw [numBins_eq, hn', binOf_length, hcount]
  · intro s e hb
    have h1 := binOf_succ R e
    rw [hb.2.2.1] at h1
    have h2 := binOf_mono R (show e + 1 ≤ R.length by have := hb.2.1; omega)
    rw [binOf_length, hcount] at h2
    simp at h1
    omega
  · intro s e hb
    rw [hn'] at hb
    rw [binTotal_cast]
    have := prebin_total hclean hw hsort hR false hb
    exact_mod_cast this
  · intro s e hb
    rw [hn'] at hb
    rw [binTotal_cast]
    have := prebin_total hclean hw hsort hR true hb
    exact_mod_cast this
  · intro s e s' e' hb hb' hlt
    have h1 := binOf_succ R e
    rw [hb.2.2.1] at h1
    have h2 := binOf_mono R (show e + 1 ≤ e' by omega)
    simp at h1
    omega
  · rintro s e s' e' hb hb' rfl
    have h1 := binOf_succ R e
    rw [hb.2.2.1] at h1
    have h2 := binOf_const hb' hb'.1 le_rfl
    simp at h1
    omega
  · intro k hk
    obtain ⟨s, e, hb, hk', -⟩ := accumBins_bin R hlast (k := k) (by rw [hcount]; omega)
    exact ⟨s, e, hn' ▸ hb, hk'⟩
  · rw [binTotal_cast, hn]
    have := prebin_all (ps := ps) hclean hw false
    exact_mod_cast this
  · rw [binTotal_cast, hn]
    have := prebin_all (ps := ps) hclean hw true
    exact_mod_cast this

theorem CutBins.rate {recs : List (Rec α)} {cs : List α} {n : ℕ} {sol : ℕ → Bool} {ne ev : ℕ → ℤ} {idx : ℕ → ℕ} (h : CutBins recs cs n sol ne ev idx)
    {s e : ℕ} (hb : IsBin n sol s e) : eventRate ne ev s e = cutRate recs cs (idx e) := by
  unfold eventRate cutRate
  rw [h.rowNe s e hb, h.rowEv s e hb]

/-- The divergence of the table of the cut points is the total over the bins. -/
theorem CutBins.divergence {recs : List (Rec α)} {cs : List α} {n : ℕ} {sol : ℕ → Bool} {ne ev : ℕ → ℤ} {idx : ℕ → ℕ} (h : CutBins recs cs n sol ne ev idx)
    (D : ℝ → ℝ → ℝ) : totalOverBins n sol (binDivergence D n ne ev) = cutDivergence D recs cs := by
  classical
  unfold totalOverBins cutDivergence
  refine Finset.sum_bij (fun p _ => idx p.2) ?_ ?_ ?_ ?_
  · rintro ⟨s, e⟩ hp
    have hb := (Finset.mem_filter.1 hp).2
    have := h.le s e hb
    simp only [mem_range]; omega
  · rintro ⟨s, e⟩ hp ⟨s', e'⟩ hp' heq
    have hb := (Finset.mem_filter.1 hp).2
    have hb' := (Finset.mem_filter.1 hp').2
    simp only at heq hb hb'
    rcases Nat.lt_trichotomy e e' with hlt | rfl | hlt
    · have := h.lt _ _ _ _ hb hb' hlt; omega
    · have := Iso.bin_unique hb hb' hb.1 le_rfl hb'.1 le_rfl
      rw [this.1]
    · have := h.lt _ _ _ _ hb' hb hlt; omega
  · intro k hk
    obtain ⟨s, e, hb, hk'⟩ := h.surj k (by have := mem_range.1 hk; omega)
    refine ⟨(s, e), ?_, hk'⟩
    refine Finset.mem_filter.2 ⟨?_, hb⟩
    have := hb.2.1; have := hb.1
    simp only [mem_product, mem_range]; omega
  · rintro ⟨s, e⟩ hp
    have hb := (Finset.mem_filter.1 hp).2
    simp only at hb
    unfold binDivergence
    have cast : ∀ (z : ℤ) (q : ℚ), (z : ℚ) = q → ((z : ℤ) : ℝ) = ((q : ℚ) : ℝ) := by
      rintro z q rfl; push_cast; rfl
    rw [cast _ _ (h.rowNe s e hb), cast _ _ (h.rowEv s e hb), cast _ _ h.totNe, cast _ _ h.totEv]

/-- Trends carry over. -/
theorem CutBins.ascending {recs : List (Rec α)} {cs : List α} {n : ℕ} {sol : ℕ → Bool} {ne ev : ℕ → ℤ} {idx : ℕ → ℕ} (h : CutBins recs cs n sol ne ev idx)
    (ht : CutsAscending recs cs) : TrendHolds n sol (eventRate ne ev) .ascending := by
  intro s e s' e' hb hb' hlt _ _
  rw [h.rate hb, h.rate hb']
  exact ht _ _ (h.lt _ _ _ _ hb hb' hlt) (h.le _ _ hb')

theorem CutBins.descending {recs : List (Rec α)} {cs : List α} {n : ℕ} {sol : ℕ → Bool} {ne ev : ℕ → ℤ} {idx : ℕ → ℕ} (h : CutBins recs cs n sol ne ev idx)
    (ht : CutsDescending recs cs) : TrendHolds n sol (eventRate ne ev) .descending := by
  intro s e s' e' hb hb' hlt _ _
  rw [h.rate hb, h.rate hb']
  exact ht _ _ (h.lt _ _ _ _ hb hb' hlt) (h.le _ _ hb')

theorem CutBins.threshold {recs : List (Rec α)} {cs : List α} {n : ℕ} {sol : ℕ → Bool} {ne ev : ℕ → ℤ} {idx : ℕ → ℕ} (h : CutBins recs cs n sol ne ev idx)
    (c : ℕ) : ∃ c', ∀ s e, IsBin n sol s e → (e < c' ↔ idx e < c) := by
  by_cases hc : c ≤ cs.length
  · obtain ⟨s₀, e₀, hb₀, hk⟩ := h.surj c hc
    refine ⟨e₀, fun s e hb => ?_⟩
    rcases Nat.lt_trichotomy e e₀ with hlt | rfl | hlt
    · have := h.lt _ _ _ _ hb hb₀ hlt; omega
    · omega
    · have := h.lt _ _ _ _ hb₀ hb hlt; omega
  · refine ⟨n, fun s e hb => ?_⟩
    have := h.le _ _ hb
    have := hb.2.1
    omega

theorem CutBins.peak {recs : List (Rec α)} {cs : List α} {n : ℕ} {sol : ℕ → Bool} {ne ev : ℕ → ℤ} {idx : ℕ → ℕ} (h : CutBins recs cs n sol ne ev idx)
    (ht : CutsPeak recs cs) : TrendHolds n sol (eventRate ne ev) .peak := by
  obtain ⟨c, h1, h2⟩ := ht
  obtain ⟨c', hc⟩ := h.threshold c
  refine ⟨c', ?_, ?_⟩
  · intro s e s' e' hb hb' hlt h3 h4
    rw [h.rate hb, h.rate hb']
    exact h1 _ _ (h.lt _ _ _ _ hb hb' hlt) (h.le _ _ hb') ((hc _ _ hb').1 h4)
  · intro s e s' e' hb hb' hlt h3 h4
    rw [h.rate hb, h.rate hb']
    refine h2 _ _ (h.lt _ _ _ _ hb hb' hlt) (h.le _ _ hb') ?_
    have := (hc _ _ hb).not
    omega

theorem CutBins.valley {recs : List (Rec α)} {cs : List α} {n : ℕ} {sol : ℕ → Bool} {ne ev : ℕ → ℤ} {idx : ℕ → ℕ} (h : CutBins recs cs n sol ne ev idx)
    (ht : CutsValley recs cs) : TrendHolds n sol (eventRate ne ev) .valley := by
  obtain ⟨c, h1, h2⟩ := ht
  obtain ⟨c', hc⟩ := h.threshold c
  refine ⟨c', ?_, ?_⟩
  · intro s e s' e' hb hb' hlt h3 h4
    rw [h.rate hb, h.rate hb']
    exact h1 _ _ (h.lt _ _ _ _ hb hb' hlt) (h.le _ _ hb') ((hc _ _ hb').1 h4)
  · intro s e s' e' hb hb' hlt h3 h4
    rw [h.rate hb, h.rate hb']
    refine h2 _ _ (h.lt _ _ _ _ hb hb' hlt) (h.le _ _ hb') ?_
    have := (hc _ _ hb).not
    omega

end OptBinning
