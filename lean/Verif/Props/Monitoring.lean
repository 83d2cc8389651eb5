import Verif.Model.Monitoring
import Verif.Lemmas.TableDiv
import Verif.Lemmas.Fit
import Mathlib.Tactic.Linarith
import Mathlib.Tactic.Positivity

/-! # C36: population stability index -/
namespace OptBinning
open Spec (actual expected SamePopulation InLeftOpen)

theorem fltSum_cons (a : Flt) (l : List Flt) : fltSum (a :: l) = Flt.add a (fltSum l) := rfl

theorem fltSum_nan_iff (l : List Flt) : fltSum l = .nan ↔ Flt.nan ∈ l := by
  induction l with
  | nil => simp [fltSum]
  | cons a l ih =>
    rw [fltSum_cons, List.mem_cons, ← ih]
    generalize fltSum l = s
    cases a <;> cases s <;> simp [Flt.add]

theorem fltSum_inf_iff (l : List Flt) : fltSum l = .inf ↔ Flt.nan ∉ l ∧ Flt.inf ∈ l := by
  induction l with
  | nil => simp [fltSum]
  | cons a l ih =>
    have hn := fltSum_nan_iff l
    rw [fltSum_cons, List.mem_cons, List.mem_cons]
    generalize fltSum l = s at ih hn
    cases a <;> cases s <;> simp [Flt.add] at * <;> tauto

theorem fltSum_real {β : Type*} (l : List β) (f : β → ℝ) : fltSum (l.map fun b => .real (f b)) = .real ((l.map f).sum) := by
  induction l with
  | nil => rfl
  | cons a l ih => rw [List.map_cons, fltSum_cons, ih]; rfl

/-- Every bin holds actual and expected records. -/
def AllPopulated (t : List (ℕ × ℕ)) : Prop := ∀ p ∈ t, 0 < p.1 ∧ 0 < p.2

theorem psiTerm_symm {a e : ℝ} (ha : 0 ≤ a) (he : 0 ≤ e) : psiTerm a e = psiTerm e a := by
  unfold psiTerm
  by_cases h1 : e = 0 <;> by_cases h2 : a = 0 <;> simp [h1, h2]
  exact goodDiv_jeffrey.symm a e (lt_of_le_of_ne ha (Ne.symm h2)) (lt_of_le_of_ne he (Ne.symm h1))

theorem share_zero_iff {n m : ℕ} (hm : m ≠ 0) : (n : ℝ) / (m : ℝ) = 0 ↔ n = 0 := by
  have : (m : ℝ) ≠ 0 := by exact_mod_cast hm
  rw [div_eq_zero_iff]; simp [this]

theorem psiTerm_nan_iff (a e : ℝ) : psiTerm a e = .nan ↔ a = 0 ∧ e = 0 := by
  unfold psiTerm; by_cases h1 : e = 0 <;> by_cases h2 : a = 0 <;> simp [h1, h2]

theorem psiTerm_inf_iff (a e : ℝ) : psiTerm a e = .inf ↔ (a = 0 ∧ e ≠ 0) ∨ (a ≠ 0 ∧ e = 0) := by
  unfold psiTerm; by_cases h1 : e = 0 <;> by_cases h2 : a = 0 <;> simp [h1, h2]

/-- C36: with records in both samples the PSI table is computed, with one line per bin. -/
theorem C36_defined (t : List (ℕ × ℕ)) (ha : actual t ≠ 0) (he : expected t ≠ 0) :
    ∃ l s, systemPsi t = .ok (l, s) ∧ l.length = t.length := by
  unfold systemPsi
  simp only
  rw [if_neg (by unfold actual at ha; unfold expected at he; tauto)]
  exact ⟨_, _, rfl, by simp⟩

theorem systemPsi_ok {t : List (ℕ × ℕ)} {l : List Flt} {s : Flt} (h : systemPsi t = .ok (l, s)) :
    actual t ≠ 0 ∧ expected t ≠ 0 ∧
      l = (t.map fun p => psiTerm ((p.1 : ℝ) / (actual t : ℝ)) ((p.2 : ℝ) / (expected t : ℝ))) ∧ s = fltSum l := by
  unfold systemPsi at h
  simp only at h
  split_ifs at h with hc
  simp only [Except.ok.injEq, Prod.mk.injEq] at h
  unfold actual expected
  refine ⟨by tauto, by tauto, h.1.symm, ?_⟩
  rw [← h.2, ← h.1]

/-- C36: if every bin has actual and expected records, the total PSI is a real number, it is not negative, and it is zero iff
both populations have the same distribution over the bins. -/
theorem C36_psi_partial (t : List (ℕ × ℕ)) (l : List Flt) (s : Flt) (h : systemPsi t = .ok (l, s)) (hp : AllPopulated t) :
    ∃ r : ℝ, s = .real r ∧ 0 ≤ r ∧ (r = 0 ↔ SamePopulation t) ∧ ∀ f ∈ l, ∃ q, f = .real q ∧ 0 ≤ q := by
  obtain ⟨ha, he, rfl, rfl⟩ := systemPsi_ok h
  have ha' : (0 : ℝ) < (actual t : ℝ) := by exact_mod_cast Nat.pos_of_ne_zero ha
  have he' : (0 : ℝ) < (expected t : ℝ) := by exact_mod_cast Nat.pos_of_ne_zero he
  have hsh : ∀ p ∈ t, 0 < (p.1 : ℝ) / (actual t : ℝ) ∧ 0 < (p.2 : ℝ) / (expected t : ℝ) := by
    intro p hpt
    have h1 : (0 : ℝ) < p.1 := by exact_mod_cast (hp p hpt).1
    have h2 : (0 : ℝ) < p.2 := by exact_mod_cast (hp p hpt).2
    exact ⟨by positivity, by positivity⟩
  have hterm : ∀ p ∈ t, psiTerm ((p.1 : ℝ) / (actual t : ℝ)) ((p.2 : ℝ) / (expected t : ℝ)) =
      .real (jeffrey ((p.1 : ℝ) / (actual t : ℝ)) ((p.2 : ℝ) / (expected t : ℝ))) := by
    intro p hpt
    unfold psiTerm
    rw [if_neg (hsh p hpt).2.ne', if_neg (hsh p hpt).1.ne']
  have hnn : ∀ p ∈ t, 0 ≤ jeffrey ((p.1 : ℝ) / (actual t : ℝ)) ((p.2 : ℝ) / (expected t : ℝ)) :=
    fun p hpt => goodDiv_jeffrey.nonneg _ _ (hsh p hpt).1 (hsh p hpt).2
  rw [List.map_congr_left hterm, fltSum_real]
  refine ⟨_, rfl, List.sum_nonneg (by intro x hx; obtain ⟨p, hpt, rfl⟩ := List.mem_map.mp hx; exact hnn p hpt), ?_, ?_⟩
  · rw [sum_eq_zero_iff_nonneg _ _ hnn]
    unfold SamePopulation
    exact forall₂_congr fun p hpt => goodDiv_jeffrey.zero_iff _ _ (hsh p hpt).1 (hsh p hpt).2
  · intro f hf
    obtain ⟨p, hpt, rfl⟩ := List.mem_map.mp hf
    exact ⟨_, rfl, hnn p hpt⟩

/-- C36: exchanging the roles of actual and expected does not change the PSI (also when it is not a real number). -/
theorem C36_symmetric (t : List (ℕ × ℕ)) : systemPsi (t.map Prod.swap) = systemPsi t := by
  unfold systemPsi
  simp only [List.map_map]
  have e1 : (t.map (Prod.fst ∘ Prod.swap)) = t.map Prod.snd := by simp [Function.comp_def]
  have e2 : (t.map (Prod.snd ∘ Prod.swap)) = t.map Prod.fst := by simp [Function.comp_def]
  rw [e1, e2]
  by_cases hc : (t.map Prod.fst).sum = 0 ∨ (t.map Prod.snd).sum = 0
  · rw [if_pos hc, if_pos hc.symm]
  · rw [if_neg hc, if_neg fun h => hc h.symm]
    have hm : (t.map ((fun p : ℕ × ℕ => psiTerm ((p.1 : ℝ) / (((t.map Prod.snd).sum : ℕ) : ℝ)) ((p.2 : ℝ) / (((t.map Prod.fst).sum : ℕ) : ℝ))) ∘ Prod.swap))
        = t.map fun p => psiTerm ((p.1 : ℝ) / (((t.map Prod.fst).sum : ℕ) : ℝ)) ((p.2 : ℝ) / (((t.map Prod.snd).sum : ℕ) : ℝ)) := by
      apply List.map_congr_left
      intro p _
      exact psiTerm_symm (div_nonneg (Nat.cast_nonneg _) (Nat.cast_nonneg _)) (div_nonneg (Nat.cast_nonneg _) (Nat.cast_nonneg _))
    rw [hm]

/-- C36, finding: a bin that is empty in exactly one sample makes the PSI infinite, and a bin empty in both samples makes it
NaN; these are exactly the cases in which it is not a real number. -/
theorem C36_empty_bins (t : List (ℕ × ℕ)) (l : List Flt) (s : Flt) (h : systemPsi t = .ok (l, s)) :
    (s = .nan ↔ (0, 0) ∈ t) ∧
    (s = .inf ↔ (0, 0) ∉ t ∧ ∃ p ∈ t, (p.1 = 0 ∧ p.2 ≠ 0) ∨ (p.1 ≠ 0 ∧ p.2 = 0)) ∧
    ((∃ r, s = .real r) ↔ AllPopulated t) := by
  obtain ⟨ha, he, rfl, rfl⟩ := systemPsi_ok h
  have hnan : Flt.nan ∈ (t.map fun p => psiTerm ((p.1 : ℝ) / (actual t : ℝ)) ((p.2 : ℝ) / (expected t : ℝ))) ↔ (0, 0) ∈ t := by
    rw [List.mem_map]
    constructor
    · rintro ⟨p, hp, hpn⟩
      rw [psiTerm_nan_iff, share_zero_iff ha, share_zero_iff he] at hpn
      rwa [show p = (0, 0) from Prod.ext hpn.1 hpn.2] at hp
    · intro hz
      exact ⟨_, hz, by rw [psiTerm_nan_iff]; simp⟩
  have hinf : Flt.inf ∈ (t.map fun p => psiTerm ((p.1 : ℝ) / (actual t : ℝ)) ((p.2 : ℝ) / (expected t : ℝ))) ↔
      ∃ p ∈ t, (p.1 = 0 ∧ p.2 ≠ 0) ∨ (p.1 ≠ 0 ∧ p.2 = 0) := by
    rw [List.mem_map]
    refine exists_congr fun p => and_congr_right fun _ => ?_
    rw [psiTerm_inf_iff, Ne, Ne, share_zero_iff ha, share_zero_iff he]
  have h1 : fltSum (t.map fun p => psiTerm ((p.1 : ℝ) / (actual t : ℝ)) ((p.2 : ℝ) / (expected t : ℝ))) = .nan ↔ (0, 0) ∈ t := by
    rw [fltSum_nan_iff, hnan]
  have h2 : fltSum (t.map fun p => psiTerm ((p.1 : ℝ) / (actual t : ℝ)) ((p.2 : ℝ) / (expected t : ℝ))) = .inf ↔
      (0, 0) ∉ t ∧ ∃ p ∈ t, (p.1 = 0 ∧ p.2 ≠ 0) ∨ (p.1 ≠ 0 ∧ p.2 = 0) := by
    rw [fltSum_inf_iff, hnan, hinf]
  refine ⟨h1, h2, ?_⟩
  constructor
  · rintro ⟨r, hr⟩ p hp
    have n1 : (0, 0) ∉ t := fun hz => by rw [h1.mpr hz] at hr; exact absurd hr (by simp)
    have n2 : ¬ ∃ p ∈ t, (p.1 = 0 ∧ p.2 ≠ 0) ∨ (p.1 ≠ 0 ∧ p.2 = 0) := fun hz => by
      rw [h2.mpr ⟨n1, hz⟩] at hr; exact absurd hr (by simp)
    by_contra hc
    rcases Nat.eq_zero_or_pos p.1 with h3 | h3 <;> rcases Nat.eq_zero_or_pos p.2 with h4 | h4
    · exact n1 (by rwa [show p = (0, 0) from Prod.ext h3 h4] at hp)
    · exact n2 ⟨p, hp, Or.inl ⟨h3, by omega⟩⟩
    · exact n2 ⟨p, hp, Or.inr ⟨by omega, h4⟩⟩
    · exact hc ⟨h3, h4⟩
  · intro hp
    obtain ⟨r, hr, -⟩ := C36_psi_partial t _ _ h hp
    exact ⟨r, hr⟩

/-! ## Counts -/

theorem sum_range_ite (c m : ℕ) : ((List.range m).map fun i => if c = i then 1 else 0).sum = if c < m then 1 else 0 := by
  induction m with
  | zero => simp
  | succ m ih =>
    rw [List.range_succ, List.map_append, List.sum_append, ih]
    by_cases h1 : c < m
    · simp [h1, Nat.ne_of_lt h1, Nat.lt_succ_of_lt h1]
    · by_cases h2 : c = m
      · simp [h2]
      · have : ¬ c < m + 1 := by omega
        simp [h1, h2, this]

/-- Counting per index and adding up counts every element with an index in range once. -/
theorem sum_range_filter_length {β : Type*} (l : List β) (f : β → ℕ) (m : ℕ) (p : β → Bool) :
    ((List.range m).map fun i => (l.filter fun b => p b && f b == i).length).sum =
      (l.filter fun b => p b && decide (f b < m)).length := by
  induction l with
  | nil => simp
  | cons b l ih =>
    have key : ∀ i, ((b :: l).filter fun b => p b && f b == i).length =
        (if p b = true then (if f b = i then 1 else 0) else 0) + (l.filter fun b => p b && f b == i).length := by
      intro i; rw [List.filter_cons]
      by_cases h1 : p b = true <;> by_cases h2 : f b = i <;> simp [h1, h2]; omega
    simp only [key]
    rw [List.sum_map_add, ih, List.filter_cons]
    by_cases hpb : p b = true
    · simp only [hpb, if_true, Bool.true_and]
      rw [sum_range_ite]
      by_cases hm : f b < m <;> simp [hm]; omega
    · simp [hpb]

variable {α : Type*} [LinearOrder α]

theorem inLeftOpen_iff {s : List α} (h : s.Pairwise (· ≤ ·)) (v : α) (i : ℕ) :
    digitize true s (some v) = i ↔ InLeftOpen s i v := by
  simp only [digitize, if_true, InLeftOpen]
  induction s generalizing i with
  | nil => simp; omega
  | cons a s ih =>
    have ih' := ih (List.pairwise_cons.1 h).2
    by_cases hav : a < v
    · simp only [List.countP_cons, hav, decide_true, if_true, List.length_cons]
      cases i with
      | zero =>
        simp only [Nat.add_eq_zero_iff, one_ne_zero, and_false, false_iff, not_and]
        intro _ h3
        exact absurd (h3 a (by simp)) (by simpa using hav)
      | succ i =>
        rw [Nat.add_right_cancel_iff, ih' i]
        simp only [List.getElem?_cons_succ, Nat.add_le_add_iff_right]
        refine and_congr_right fun _ => and_congr_right fun _ => ?_
        constructor
        · intro h3 j b hj hb
          cases j with
          | zero => simp at hb; exact hb ▸ hav
          | succ j => exact h3 j b (by omega) (by simpa using hb)
        · intro h3 j b hj hb
          exact h3 (j + 1) b (by omega) (by simpa using hb)
    · have h0 : s.countP (fun t => decide (t < v)) = 0 := by
        rw [List.countP_eq_zero]
        intro t ht
        have := (List.pairwise_cons.1 h).1 t ht
        simp only [decide_eq_true_eq, not_lt]
        exact (not_lt.mp hav).trans this
      simp only [List.countP_cons, hav, decide_false, Bool.false_eq_true, if_false, h0, List.length_cons]
      constructor
      · rintro rfl
        refine ⟨Nat.zero_le _, fun b hb => ?_, fun j b hj => absurd hj (by omega)⟩
        simp at hb
        exact hb ▸ not_lt.1 hav
      · rintro ⟨-, -, h3⟩
        by_contra hk
        exact hav (h3 0 a (by omega) (by simp))

/-- C36: the score bins of the system report.  Every record of either sample is counted in exactly one bin: bin `i` of the
table counts the records whose score lies in the `i`-th interval, and the counts add up to the sample sizes. -/
theorem C36_system_counts (splits : List α) (hs : splits.Pairwise (· ≤ ·)) (act exp : List (α × Bool)) :
    (systemCounts splits act exp).length = splits.length + 1 ∧
    actual (systemCounts splits act exp) = act.length ∧ expected (systemCounts splits act exp) = exp.length ∧
    ∀ i p, (systemCounts splits act exp)[i]? = some p →
      ∃ inBin : α → Bool, (∀ v, inBin v = true ↔ InLeftOpen splits i v) ∧
        p = ((act.filter fun r => inBin r.1).length, (exp.filter fun r => inBin r.1).length) := by
  have hsplit : ∀ (recs : List (α × Bool)) (q : α × Bool → Bool),
      (recs.filter fun r => r.2 && q r).length + (recs.filter fun r => !r.2 && q r).length = (recs.filter q).length := by
    intro recs q
    induction recs with
    | nil => simp
    | cons r recs ih =>
      rcases hb : r.2 <;> rcases hq : q r <;> simp [hb, hq] <;> omega
  have hform : systemCounts splits act exp = (List.range (splits.length + 1)).map fun i =>
      ((act.filter fun r => true && digitize true splits (some r.1) == i).length,
       (exp.filter fun r => true && digitize true splits (some r.1) == i).length) := by
    unfold systemCounts scoreCounts
    rw [List.zipWith_map, List.zipWith_self]
    apply List.map_congr_left
    intro i _
    simp only [hsplit _ fun r => digitize true splits (some r.1) == i, Bool.true_and]
  have hall : ∀ recs : List (α × Bool),
      (recs.filter fun r => true && decide (digitize true splits (some r.1) < splits.length + 1)).length = recs.length := by
    intro recs
    rw [List.filter_eq_self.mpr]
    intro r _
    simpa using Nat.lt_succ_of_le (digitize_le true splits (some r.1))
  rw [hform]
  refine ⟨by simp, ?_, ?_, ?_⟩
  · unfold actual
    rw [List.map_map, ← hall act, ← sum_range_filter_length]; rfl
  · unfold expected
    rw [List.map_map, ← hall exp, ← sum_range_filter_length]; rfl
  · intro i p hp
    refine ⟨fun v => digitize true splits (some v) == i, fun v => ?_, ?_⟩
    · rw [beq_iff_eq, inLeftOpen_iff hs]
    · rw [List.getElem?_map, List.getElem?_range] at hp
      · simpa using hp.symm
      · by_contra hc
        rw [List.getElem?_eq_none (by simpa using hc)] at hp
        simp at hp

theorem mem_lt_indexBins {te : List ℤ} {k : ℤ} (h : k ∈ te) : k < (indexBins te : ℤ) := by
  have : k ≤ te.foldr max (-1) := by
    induction te with
    | nil => simp at h
    | cons a l ih =>
      rw [List.foldr_cons]
      rcases List.mem_cons.mp h with rfl | h
      · exact le_max_left _ _
      · exact (ih h).trans (le_max_right _ _)
  unfold indexBins
  omega

theorem indexBins_mem {te : List ℤ} (h : 0 < indexBins te) : ((indexBins te : ℤ) - 1) ∈ te := by
  have key : te.foldr max (-1) = -1 ∨ te.foldr max (-1) ∈ te := by
    clear h
    induction te with
    | nil => simp
    | cons a l ih =>
      rw [List.foldr_cons]
      rcases max_choice a (l.foldr max (-1)) with h | h <;> rw [h]
      · right; simp
      · rcases ih with h' | h'
        · left; exact h'
        · right; simp [h']
  unfold indexBins at *
  rcases key with h' | h'
  · rw [h'] at h; simp at h
  · have hpos : 0 ≤ te.foldr max (-1) := by omega
    rw [Int.toNat_of_nonneg (by omega)]
    simpa using h'

/-- Counting integers equal to `0, …, m-1`. -/
theorem sum_range_count (l : List ℤ) (m : ℕ) :
    ((List.range m).map fun (i : ℕ) => l.count (i : ℤ)).sum = (l.filter fun k => decide (0 ≤ k ∧ k < (m : ℤ))).length := by
  induction l with
  | nil => simp
  | cons a l ih =>
    simp only [List.count_cons]
    rw [List.sum_map_add, ih, List.filter_cons]
    have : ((List.range m).map fun (i : ℕ) => if (a == (i : ℤ)) = true then 1 else 0).sum =
        if 0 ≤ a ∧ a < (m : ℤ) then 1 else 0 := by
      by_cases ha : 0 ≤ a
      · lift a to ℕ using ha
        have := sum_range_ite a m
        simp only [beq_iff_eq, Nat.cast_inj, Nat.cast_nonneg, true_and, Nat.cast_lt]
        exact this
      · rw [if_neg (by tauto), List.sum_eq_zero]
        intro x hx
        obtain ⟨i, -, rfl⟩ := List.mem_map.mp hx
        rw [if_neg]; simp; omega
    rw [this]
    by_cases h : 0 ≤ a ∧ a < (m : ℤ)
    · simp [h]
    · simp [h]

/-- C36: the per-variable report counts, for the expected sample, every record with a bin index; for the actual sample,
exactly the records whose index occurs up to the largest index seen in the expected sample. -/
theorem C36_variable_counts_partial (ta te : List ℤ) :
    expected (variableCounts ta te) = (te.filter fun k => decide (0 ≤ k)).length ∧
    actual (variableCounts ta te) = (ta.filter fun k => decide (0 ≤ k ∧ ∃ m ∈ te, k ≤ m)).length ∧
    ∀ (i : ℕ) p, (variableCounts ta te)[i]? = some p → p = (ta.count (i : ℤ), te.count (i : ℤ)) := by
  unfold variableCounts
  refine ⟨?_, ?_, ?_⟩
  · unfold expected
    rw [List.map_map]
    refine (sum_range_count te (indexBins te)).trans ?_
    congr 1
    apply List.filter_congr
    intro k hk
    have := mem_lt_indexBins hk
    simp [this]
  · unfold actual
    rw [List.map_map]
    refine (sum_range_count ta (indexBins te)).trans ?_
    congr 1
    apply List.filter_congr
    intro k _
    rw [decide_eq_decide]
    refine and_congr_right fun h0 => ?_
    constructor
    · intro hlt
      exact ⟨_, indexBins_mem (by omega), by omega⟩
    · rintro ⟨m, hm, hle⟩
      have := mem_lt_indexBins hm
      omega
  · intro i p hp
    rw [List.getElem?_map] at hp
    by_cases hi : i < indexBins te
    · rw [List.getElem?_range hi] at hp; simpa using hp.symm
    · rw [List.getElem?_eq_none (by simpa using hi)] at hp; simp at hp

/-- C36, finding: actual records in a bin above all expected ones are not in the report: half of the actual sample moved to
a bin nobody was expected in, and the PSI of the variable is 0. -/
theorem C36_new_bin_invisible :
    ∃ ta te : List ℤ, ta.length = 2 ∧ actual (variableCounts ta te) = 1 ∧
      ∃ l, systemPsi (variableCounts ta te) = .ok (l, .real 0) := by
  refine ⟨[0, 1], [0, 0], rfl, by decide, ?_⟩
  have e : variableCounts [0, 1] [0, 0] = [(1, 2)] := by decide
  rw [e]
  refine ⟨[.real 0], ?_⟩
  simp [systemPsi, psiTerm, jeffrey, xlogy, fltSum, Flt.add]

/-- C36, finding: the report uses the default `metric_missing=0`, which sends missing values to index 0: an actual sample
consisting of missing values only has PSI 0 against an expected sample without any missing value. -/
theorem C36_missing_invisible (f : Fitted α) (v : α) (hv : digitize false f.splits (some v) = 0) (n m : ℕ) (hn : 0 < n) (hm : 0 < m) :
    ∃ l, systemPsi (variableCounts
        (transformIndices f .none (.int 0) (.int 0) (List.replicate n none))
        (transformIndices f .none (.int 0) (.int 0) (List.replicate m (some v)))) = .ok (l, .real 0) := by
  have h1 : transformIndices f .none (.int 0) (.int 0) (List.replicate n none) = List.replicate n 0 := by
    simp [transformIndices, transformOne, assignSpecialMissing, MetricOpt.forIndices]
  have h2 : transformIndices f .none (.int 0) (.int 0) (List.replicate m (some v)) = List.replicate m 0 := by
    simp [transformIndices, transformOne, assignSpecialMissing, MetricOpt.forIndices, SpecialCodes.codes, hv]
  rw [h1, h2]
  have hb : indexBins (List.replicate m 0) = 1 := by
    obtain ⟨k, rfl⟩ := Nat.exists_eq_succ_of_ne_zero hm.ne'
    have : ∀ k, (List.replicate k (0 : ℤ)).foldr max (-1) ≤ 0 := by
      intro k; induction k with
      | zero => simp
      | succ k ih => rw [List.replicate_succ, List.foldr_cons]; exact max_le le_rfl ih
    unfold indexBins
    rw [List.replicate_succ, List.foldr_cons, max_eq_left (this k)]; rfl
  have e : variableCounts (List.replicate n 0) (List.replicate m 0) = [(n, m)] := by
    unfold variableCounts
    rw [hb]
    simp
  rw [e]
  have hn' : (n : ℝ) ≠ 0 := by exact_mod_cast hn.ne'
  have hm' : (m : ℝ) ≠ 0 := by exact_mod_cast hm.ne'
  refine ⟨[.real 0], ?_⟩
  simp [systemPsi, psiTerm, jeffrey, xlogy, fltSum, Flt.add, hn.ne', hm.ne', hn', hm']

/-- Non-vacuity: a system report with two bins, all populated, with different distributions. -/
example : ∃ l s r, systemPsi [(3, 1), (1, 3)] = .ok (l, s) ∧ AllPopulated [(3, 1), (1, 3)] ∧ s = .real r ∧ 0 < r := by
  obtain ⟨l, s, h, -⟩ := C36_defined [(3, 1), (1, 3)] (by decide) (by decide)
  have hp : AllPopulated [(3, 1), (1, 3)] := by simp [AllPopulated]
  obtain ⟨r, hs, h0, hz, -⟩ := C36_psi_partial _ l s h hp
  refine ⟨l, s, r, h, hp, hs, lt_of_le_of_ne h0 fun hc => ?_⟩
  have := hz.mp hc.symm (3, 1) (by simp)
  norm_num [actual, expected] at this

example : systemCounts [(10 : ℤ), 20] [(5, true), (10, false), (15, true)] [(10, true), (21, false)] = [(2, 1), (1, 0), (0, 1)] := by
  decide

end OptBinning
