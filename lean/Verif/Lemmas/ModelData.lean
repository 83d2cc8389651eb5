import Verif.Model.ModelData
import Verif.Lemmas.Accept
import Mathlib.Tactic.Positivity
import Mathlib.Algebra.BigOperators.Fin

/-! Facts about the tables of `model_data`. -/
namespace OptBinning
open Finset Spec

theorem length_cumsumFrom {R : Type*} [Add R] (acc : R) (l : List R) : (cumsumFrom acc l).length = l.length := by
  induction l generalizing acc with
  | nil => rfl
  | cons a l ih => simp [cumsumFrom, ih]

theorem cumsumFrom_getElem {R : Type*} [AddCommMonoid R] (acc : R) (l : List R) (k : ℕ)
    (hk : k < (cumsumFrom acc l).length) : (cumsumFrom acc l)[k] = acc + (l.take (k + 1)).sum := by
  induction l generalizing acc k with
  | nil => simp [cumsumFrom] at hk
  | cons a l ih =>
    cases k with
    | zero => simp [cumsumFrom]
    | succ k =>
      simp only [cumsumFrom, List.getElem_cons_succ, List.take_succ_cons, List.sum_cons]
      rw [ih, add_assoc]

theorem list_sum_eq_range {R : Type*} [AddCommMonoid R] (l : List R) :
    l.sum = ∑ k ∈ range l.length, l.getD k 0 := by
  induction l with
  | nil => simp
  | cons a l ih =>
    rw [List.sum_cons, List.length_cons, Finset.sum_range_succ', ih, add_comm]
    simp

/-- The table entry `E[i][j]` is the total over pre-bins `j..i`. -/
theorem cumAt_eq {R : Type*} [AddCommMonoid R] (v : List R) {i j : ℕ} (hi : i < v.length) (hj : j ≤ i) :
    cumAt v i j = ∑ k ∈ Icc j i, v.getD k 0 := by
  unfold cumAt suffixSums
  have hlen : (cumsumFrom 0 (v.take (i + 1)).reverse).length = i + 1 := by
    rw [length_cumsumFrom]; simp; omega
  have hj' : j < (cumsumFrom 0 (v.take (i + 1)).reverse).reverse.length := by
    rw [List.length_reverse, hlen]; omega
  rw [List.getD_eq_getElem?_getD, List.getElem?_eq_getElem hj', Option.getD_some, List.getElem_reverse, cumsumFrom_getElem, zero_add]
  have h1 : (cumsumFrom 0 (v.take (i + 1)).reverse).length - 1 - j + 1 = i + 1 - j := by rw [hlen]; omega
  rw [h1, List.take_reverse, List.sum_reverse, list_sum_eq_range]
  have h2 : (List.take (i + 1) v).length = i + 1 := by simp; omega
  simp only [List.length_drop, h2]
  have h3 : i + 1 - (i + 1 - (i + 1 - j)) = i + 1 - j := by omega
  rw [h3]
  have h4 : i + 1 - (i + 1 - j) = j := by omega
  rw [h4]
  rw [← Finset.Ico_add_one_right_eq_Icc, Finset.sum_Ico_eq_sum_range]
  apply Finset.sum_congr rfl
  intro k hk
  simp only [mem_range] at hk
  rw [List.getD_eq_getElem?_getD, List.getElem?_drop, List.getElem?_take_of_lt (by omega), ← List.getD_eq_getElem?_getD]

/-- The counts as functions on pre-bin indices. -/
def BinaryInput.ne (inp : BinaryInput) : ℕ → ℤ := fun k => ((inp.nonevent.getD k 0 : ℕ) : ℤ)
/-- The counts as functions on pre-bin indices. -/
def BinaryInput.ev (inp : BinaryInput) : ℕ → ℤ := fun k => ((inp.event.getD k 0 : ℕ) : ℤ)

/-- Well-formed input: as many event as non-event counts, at least one pre-bin. -/
structure BinaryInput.Wf (inp : BinaryInput) : Prop where
  len : inp.event.length = inp.nonevent.length
  pos : 0 < inp.nonevent.length

theorem cumAt_event (inp : BinaryInput) (h : inp.Wf) {i j : ℕ} (hi : i < inp.n) (hj : j ≤ i) :
    ((cumAt inp.event i j : ℕ) : ℤ) = binTotal inp.ev j i := by
  rw [cumAt_eq _ (by rw [h.len]; exact hi) hj]
  unfold binTotal BinaryInput.ev
  push_cast
  rfl

theorem cumAt_nonevent (inp : BinaryInput) {i j : ℕ} (hi : i < inp.n) (hj : j ≤ i) :
    ((cumAt inp.nonevent i j : ℕ) : ℤ) = binTotal inp.ne j i := by
  rw [cumAt_eq _ hi hj]
  unfold binTotal BinaryInput.ne
  push_cast
  rfl

theorem rate_eq (inp : BinaryInput) (h : inp.Wf) {i j : ℕ} (hi : i < inp.n) (hj : j ≤ i) :
    inp.rate i j = eventRate inp.ne inp.ev j i := by
  unfold BinaryInput.rate eventRate
  rw [← cumAt_event inp h hi hj, ← cumAt_nonevent inp hi hj]
  push_cast
  rfl

theorem rate_bounds (inp : BinaryInput) (i j : ℕ) : 0 ≤ inp.rate i j ∧ inp.rate i j ≤ 1 := by
  unfold BinaryInput.rate
  have h1 : (0 : ℚ) ≤ ((cumAt inp.event i j : ℕ) : ℚ) := by positivity
  have h2 : (0 : ℚ) ≤ ((cumAt inp.nonevent i j : ℕ) : ℚ) := by positivity
  refine ⟨by positivity, ?_⟩
  apply div_le_one_of_le₀ <;> linarith

theorem rateCP_floor (inp : BinaryInput) (i j : ℕ) : inp.rateCP i j = ⌊inp.rate i j * 1000000⌋ := by
  unfold BinaryInput.rateCP truncRat scale
  push_cast
  rw [if_pos]
  have := (rate_bounds inp i j).1
  positivity

theorem rateCP_bounds (inp : BinaryInput) (i j : ℕ) : 0 ≤ inp.rateCP i j ∧ inp.rateCP i j ≤ 1000000 := by
  rw [rateCP_floor]
  obtain ⟨h1, h2⟩ := rate_bounds inp i j
  refine ⟨Int.floor_nonneg.2 (by positivity), ?_⟩
  have : ⌊inp.rate i j * 1000000⌋ ≤ ⌊(1000000 : ℚ)⌋ := Int.floor_le_floor (by linarith)
  have h3 : ⌊(1000000 : ℚ)⌋ = 1000000 := by norm_num
  omega

/-! ### violation lists -/

theorem mem_pvalue_all {n : ℕ} {E NE : ℕ → ℕ → ℕ} {test : ℕ → ℕ → ℕ → ℕ → Bool} {i r j k : ℕ} :
    ((i, r), (j, k)) ∈ pvalueViolations n E NE test .all ↔
      r ≤ i ∧ i < k ∧ k ≤ j ∧ j < n ∧ test (E i r) (NE i r) (E j k) (NE j k) = true := by
  unfold pvalueViolations
  simp only [List.mem_flatMap, List.mem_range, List.mem_filterMap, List.mem_range'_1]
  constructor
  · rintro ⟨i', hi', r', hr', j', hj', k', hk', h⟩
    split_ifs at h with ht
    simp only [Option.some.injEq, Prod.mk.injEq] at h
    obtain ⟨⟨rfl, rfl⟩, rfl, rfl⟩ := h
    refine ⟨by omega, by omega, by omega, by omega, ht⟩
  · rintro ⟨h1, h2, h3, h4, ht⟩
    exact ⟨i, by omega, r, by omega, j, by omega, k, by omega, by rw [if_pos ht]⟩

theorem mem_pvalue_consecutive {n : ℕ} {E NE : ℕ → ℕ → ℕ} {test : ℕ → ℕ → ℕ → ℕ → Bool} {i r j k : ℕ} :
    ((i, r), (j, k)) ∈ pvalueViolations n E NE test .consecutive ↔
      r ≤ i ∧ k = i + 1 ∧ k ≤ j ∧ j < n ∧ test (E i r) (NE i r) (E j k) (NE j k) = true := by
  unfold pvalueViolations
  simp only [List.mem_flatMap, List.mem_range, List.mem_filterMap, List.mem_range'_1]
  constructor
  · rintro ⟨i', hi', r', hr', j', hj', h⟩
    split_ifs at h with ht
    simp only [Option.some.injEq, Prod.mk.injEq] at h
    obtain ⟨⟨rfl, rfl⟩, rfl, rfl⟩ := h
    refine ⟨by omega, rfl, by omega, by omega, ht⟩
  · rintro ⟨h1, rfl, h3, h4, ht⟩
    exact ⟨i, by omega, r, by omega, j, by omega, by rw [if_pos ht]⟩

theorem mem_minDiff {R : Type*} [Lattice R] [AddGroup R] [DecidableLT R] {n : ℕ} {X : ℕ → ℕ → R} {δ : R}
    {i r j k : ℕ} :
    ((i, r), (j, k)) ∈ minDiffViolations n X δ ↔
      r ≤ i ∧ k = i + 1 ∧ k ≤ j ∧ j < n ∧ |X i r - X j k| < δ := by
  unfold minDiffViolations
  simp only [List.mem_flatMap, List.mem_range, List.mem_filterMap, List.mem_range'_1]
  constructor
  · rintro ⟨i', hi', r', hr', j', hj', h⟩
    split_ifs at h with ht
    simp only [Option.some.injEq, Prod.mk.injEq] at h
    obtain ⟨⟨rfl, rfl⟩, rfl, rfl⟩ := h
    refine ⟨by omega, rfl, by omega, by omega, ht⟩
  · rintro ⟨h1, rfl, h3, h4, ht⟩
    exact ⟨i, by omega, r, by omega, j, by omega, by rw [if_pos ht]⟩

/-- A list of violations that enumerates exactly the `bad` pairs of the policy. -/
def Enumerates (pol : Policy) (n : ℕ) (vs : List Violation) (bad : ℕ → ℕ → ℕ → ℕ → Prop) : Prop :=
  ∀ i r j k, ((i, r), (j, k)) ∈ vs ↔
    r ≤ i ∧ i < k ∧ (pol = .consecutive → k = i + 1) ∧ k ≤ j ∧ j < n ∧ bad r i k j

theorem Enumerates.wf {pol : Policy} {n : ℕ} {vs : List Violation} {bad : ℕ → ℕ → ℕ → ℕ → Prop}
    (h : Enumerates pol n vs bad) : ∀ v ∈ vs, WfViol n v := by
  rintro ⟨⟨i, r⟩, ⟨j, k⟩⟩ hv
  have := (h i r j k).1 hv
  exact ⟨this.1, this.2.1, this.2.2.2.1, this.2.2.2.2.1⟩

theorem Enumerates.separated {pol : Policy} {n : ℕ} {vs : List Violation} {bad : ℕ → ℕ → ℕ → ℕ → Prop}
    (h : Enumerates pol n vs bad) (sol : ℕ → Bool) :
    (∀ v ∈ vs, ¬ (IsBin n sol v.1.2 v.1.1 ∧ IsBin n sol v.2.2 v.2.1)) ↔ Separated pol n sol bad := by
  constructor
  · intro hv s e s' e' hb hb' hlt hpol hbad
    exact hv ((e, s), (e', s')) ((h _ _ _ _).2 ⟨hb.1, hlt, hpol, hb'.1, hb'.2.1, hbad⟩) ⟨hb, hb'⟩
  · rintro hs ⟨⟨i, r⟩, ⟨j, k⟩⟩ hv ⟨hb, hb'⟩
    have := (h i r j k).1 hv
    exact hs r i k j hb hb' this.2.1 this.2.2.1 this.2.2.2.2.2

/-- Two bins that the proportion test does not separate (`none`: no test requested). -/
def failsTest (inp : BinaryInput) (s e s' e' : ℕ) : Prop :=
  ∃ t, inp.test = some t ∧
    t (binTotal inp.ev s e).toNat (binTotal inp.ne s e).toNat (binTotal inp.ev s' e').toNat
      (binTotal inp.ne s' e').toNat = true

theorem enum_pviol (inp : BinaryInput) (hw : inp.Wf) : Enumerates inp.policy inp.n inp.pviol (failsTest inp) := by
  intro i r j k
  unfold BinaryInput.pviol failsTest
  cases ht : inp.test with
  | none => simp
  | some t =>
    have key : r ≤ i → k ≤ j → j < inp.n → i < k →
        ((t (binTotal inp.ev r i).toNat (binTotal inp.ne r i).toNat (binTotal inp.ev k j).toNat
          (binTotal inp.ne k j).toNat) =
        t (cumAt inp.event i r) (cumAt inp.nonevent i r) (cumAt inp.event j k) (cumAt inp.nonevent j k)) := by
      intro h1 h2 h3 h4
      rw [← cumAt_event inp hw (by omega) h1, ← cumAt_event inp hw h3 h2, ← cumAt_nonevent inp (by omega) h1,
        ← cumAt_nonevent inp h3 h2]
      simp
    simp only [Option.some.injEq, exists_eq_left']
    cases hp : inp.policy with
    | all =>
      rw [mem_pvalue_all]
      constructor
      · rintro ⟨h1, h2, h3, h4, h5⟩
        exact ⟨h1, h2, by simp, h3, h4, by rw [key h1 h3 h4 h2]; exact h5⟩
      · rintro ⟨h1, h2, -, h3, h4, h5⟩
        exact ⟨h1, h2, h3, h4, by rw [key h1 h3 h4 h2] at h5; exact h5⟩
    | consecutive =>
      rw [mem_pvalue_consecutive]
      constructor
      · rintro ⟨h1, h2, h3, h4, h5⟩
        exact ⟨h1, by omega, fun _ => h2, h3, h4, by rw [key h1 h3 h4 (by omega)]; exact h5⟩
      · rintro ⟨h1, h2, h2', h3, h4, h5⟩
        exact ⟨h1, h2' rfl, h3, h4, by rw [key h1 h3 h4 h2] at h5; exact h5⟩

end OptBinning
