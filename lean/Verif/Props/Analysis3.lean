import Verif.Props.Analysis
import Verif.Lemmas.Gini

/-!
# C99: which pair of bins each Bayesian probability belongs to, and the quality score
-/
namespace OptBinning
namespace Spec
open Finset

/-- Probability that a Beta(`a₁`, `b₁`) variable is smaller than a Beta(`a₂`, `b₂`) variable, by the midpoint rule with `n`
points: the distribution function `cdf` of the first at the quantiles `ppf` of levels `1/(2n), 3/(2n), …` of the second. -/
noncomputable def probSmaller (cdf ppf : ℕ → ℕ → ℝ → ℝ) (n a₁ b₁ a₂ b₂ : ℕ) : ℝ :=
  (∑ r ∈ range n, cdf a₁ b₁ (ppf a₂ b₂ ((2 * (r : ℝ) + 1) / (2 * (n : ℝ))))) / (n : ℝ)

/-- Quality score: a function of the information value which is largest at 0.3957…, times the product of the complements of
the p-values, times one minus the normalized concentration. -/
noncomputable def quality (iv : ℝ) (ps : List ℝ) (hhi : ℝ) : ℝ :=
  let x := iv / 0.39573882184806863
  x * Real.exp ((1 - x ^ 2) / 2) * (ps.map fun p => 1 - p).prod * (1 - hhi)
end Spec
open Finset Spec

theorem sum_range'_one {M : Type*} [AddCommMonoid M] (f : ℕ → M) (n : ℕ) : ((List.range' 1 n).map f).sum = ∑ r ∈ range n, f (r + 1) := by
  induction n with
  | zero => simp
  | succ n ih =>
    rw [List.range'_concat, List.map_append, List.sum_append, ih, sum_range_succ]
    simp [add_comm]

theorem bayesian_eq (s : ScipyTests) (n : ℕ) (sh : List ℕ → List ℕ) (hs : ∀ l, (sh l).Perm l) (aA aB bA bB : ℕ) :
    bayesian s n sh aA aB bA bB = probSmaller s.betainc s.betappf n aA bA aB bB := by
  rw [C99_bayesian_deterministic s n sh id hs (fun _ => List.Perm.refl _)]
  unfold bayesian probSmaller
  simp only [id, List.map_map]
  congr 1
  rw [sum_range'_one]
  refine sum_congr rfl fun r _ => ?_
  simp only [Function.comp]
  congr 2
  push_cast
  by_cases hn : (n : ℝ) = 0
  · simp [hn]
  · field_simp
    ring

/-- C99: column "P[A > B]" holds, for the row of bins `i` and `i + 1`, the probability that the event rate of bin `i` is larger,
that is that its non-event rate is smaller, if the non-event rates have Beta distributions with the counts of the bins as
parameters; column "P[B > A]" holds its complement. -/
theorem C99_bayesian (s : ScipyTests) (test : String) (nSamples : ℤ) (shuffle : List ℕ → List ℕ) (hs : ∀ l, (shuffle l).Perm l)
    (nonevent event : List ℕ) (nSpecials : ℕ) (others : Bool) (iv hhiN : ℝ) (ne e : List ℕ)
    (ht : TableB nonevent event nSpecials others ne e) (r : AnalysisB)
    (h : analysisB s test nSamples shuffle nonevent event nSpecials others iv hhiN = .ok r) :
    ∀ i, i + 1 < ne.length → ∃ t, r.tests[i]? = some t ∧ t.binA = i ∧ t.binB = i + 1 ∧
      t.ab = probSmaller s.betainc s.betappf nSamples.toNat (ne.getD i 0) (e.getD i 0) (ne.getD (i + 1) 0) (e.getD (i + 1) 0) ∧
      t.ba = 1 - t.ab := by
  obtain ⟨-, -, hm, -⟩ := analysisB_ok ht h
  have hf := mapM_except_forall₂ _ _ hm
  have hlen := hf.length_eq
  rw [List.length_range] at hlen
  intro i hi
  have hi' : i < r.tests.length := by omega
  refine ⟨r.tests[i], List.getElem?_eq_getElem hi', ?_⟩
  have hp : pairTestB s test nSamples.toNat shuffle ne e i = .ok r.tests[i] := by
    have := hf.get (i := i) (by rw [List.length_range]; omega) hi'
    simpa using this
  unfold pairTestB at hp
  split at hp
  · cases hp
  · simp only [Except.ok.injEq] at hp
    rw [← hp]
    exact ⟨rfl, rfl, bayesian_eq s _ shuffle hs _ _ _ _, rfl⟩

theorem mapM_real {ps : List Flt} {l : List ℝ} (h : ps.mapM Flt.real? = some l) : ps = l.map .real := by
  induction ps generalizing l with
  | nil => simp at h; subst h; rfl
  | cons p ps ih =>
    rw [List.mapM_cons] at h
    cases p with
    | real x =>
      cases hq : ps.mapM Flt.real? with
      | none => simp [Flt.real?, hq] at h
      | some l' =>
        simp [Flt.real?, hq] at h
        subst h
        rw [List.map_cons, ← ih hq]
    | nan => simp [Flt.real?] at h
    | inf => simp [Flt.real?] at h

/-- C99: if all p-values are numbers, the quality score of `analysis` is the function of the information value, these p-values
and the concentration given by its definition, and lies in [0, 1]; otherwise it is NaN. -/
theorem C99_quality (s : ScipyTests) (test : String) (nSamples : ℤ) (shuffle : List ℕ → List ℕ)
    (nonevent event : List ℕ) (nSpecials : ℕ) (others : Bool) (iv hhiN : ℝ) (ne e : List ℕ)
    (ht : TableB nonevent event nSpecials others ne e) (r : AnalysisB)
    (h : analysisB s test nSamples shuffle nonevent event nSpecials others iv hhiN = .ok r) :
    (∀ l : List ℝ, r.tests.map PairTest.pvalue = l.map .real → r.quality = .real (quality iv l hhiN) ∧
      (0 ≤ iv → 0 ≤ hhiN → hhiN ≤ 1 → (∀ p ∈ l, 0 ≤ p ∧ p ≤ 1) → 0 ≤ quality iv l hhiN ∧ quality iv l hhiN ≤ 1)) ∧
    ((∃ t ∈ r.tests, ∀ x, t.pvalue ≠ .real x) → r.quality = .nan) := by
  obtain ⟨-, -, -, hq⟩ := analysisB_ok ht h
  have hqs : ∀ l, quality iv l hhiN = qualityScore iv l hhiN := by
    intro l
    unfold quality qualityScore qualityC
    simp only
    have e1 : (1 - (iv / 0.39573882184806863) ^ 2) / 2 = 1 / 2 * (1 - (iv / 0.39573882184806863) ^ 2) := by ring
    rw [e1]
    ring
  refine ⟨fun l hl => ⟨?_, fun h1 h2 h3 h4 => ?_⟩, ?_⟩
  · rw [hq, hl, hqs]
    unfold qualityFlt
    have : (l.map Flt.real).mapM Flt.real? = some l := by
      clear hl
      induction l with
      | nil => rfl
      | cons a l ih => rw [List.map_cons, List.mapM_cons, ih]; rfl
    rw [this]
  · rw [hqs]; exact qualityScore_range h1 h4 h2 h3
  · rintro ⟨t, ht1, ht2⟩
    rw [hq]
    unfold qualityFlt
    cases hm : (r.tests.map PairTest.pvalue).mapM Flt.real? with
    | none => rfl
    | some l =>
      exfalso
      have := mapM_real hm
      have hmem : t.pvalue ∈ l.map Flt.real := this ▸ List.mem_map_of_mem ht1
      obtain ⟨x, -, hx⟩ := List.mem_map.1 hmem
      exact ht2 x hx.symm

end OptBinning
