import Verif.Spec.Binning
import Verif.Model.Solver
import Mathlib.Tactic.Linarith
import Mathlib.Tactic.Ring
import Mathlib.Algebra.BigOperators.Ring.Finset
import Mathlib.Algebra.Order.BigOperators.Group.Finset

/-! Structure of assignments satisfying unique assignment and continuity. -/
namespace OptBinning
open Finset Spec

/-- Booleanity of `x` on the triangle, unique assignment and continuity. -/
structure Core (n : ℕ) (x : ℕ → ℕ → ℤ) : Prop where
  bool : ∀ i < n, ∀ j ≤ i, x i j = 0 ∨ x i j = 1
  uniq : uniqueAssignment n x
  cont : continuity n x

/-- The diagonal as Booleans. -/
def diag (x : ℕ → ℕ → ℤ) (i : ℕ) : Bool := x i i != 0

theorem diag_eq_true {n : ℕ} {x : ℕ → ℕ → ℤ} (h : Core n x) {i : ℕ} (hi : i < n) :
    diag x i = true ↔ x i i = 1 := by
  unfold diag
  rcases h.bool i hi i le_rfl with h0 | h1 <;> simp [*]

theorem diag_eq_false {n : ℕ} {x : ℕ → ℕ → ℤ} (h : Core n x) {i : ℕ} (hi : i < n) :
    diag x i = false ↔ x i i = 0 := by
  unfold diag
  rcases h.bool i hi i le_rfl with h0 | h1 <;> simp [*]

theorem Core.row_mono {n : ℕ} {x : ℕ → ℕ → ℤ} (h : Core n x) {i j : ℕ} (hi : i < n) (hx : x i j = 1)
    {k : ℕ} (hjk : j ≤ k) (hki : k ≤ i) : x i k = 1 := by
  induction k, hjk using Nat.le_induction with
  | base => exact hx
  | succ k hjk ih =>
    have h1 := ih (by omega)
    have h2 := h.cont i hi k (by omega)
    rcases h.bool i hi (k + 1) hki with h0 | h0
    · omega
    · exact h0

theorem Core.col_exists {n : ℕ} {x : ℕ → ℕ → ℤ} (h : Core n x) {j : ℕ} (hj : j < n) :
    ∃ i, j ≤ i ∧ i < n ∧ x i j = 1 := by
  by_contra hcon
  push Not at hcon
  have h1 := h.uniq j hj
  have : ∑ i ∈ Ico j n, x i j = 0 := by
    apply Finset.sum_eq_zero
    intro i hi
    simp only [mem_Ico] at hi
    rcases h.bool i hi.2 j hi.1 with h0 | h0
    · exact h0
    · exact absurd h0 (hcon i hi.1 hi.2)
  omega

theorem Core.col_unique {n : ℕ} {x : ℕ → ℕ → ℤ} (h : Core n x) {j i k : ℕ} (hi : j ≤ i) (hin : i < n)
    (hk : j ≤ k) (hkn : k < n) (hxi : x i j = 1) (hxk : x k j = 1) : i = k := by
  by_contra hne
  have h1 := h.uniq j (by omega)
  have hsub : ({i, k} : Finset ℕ) ⊆ Ico j n := by
    intro a ha
    simp only [mem_insert, mem_singleton] at ha
    simp only [mem_Ico]
    rcases ha with rfl | rfl <;> omega
  have h2 : ∑ a ∈ ({i, k} : Finset ℕ), x a j ≤ ∑ a ∈ Ico j n, x a j := by
    apply Finset.sum_le_sum_of_subset_of_nonneg hsub
    intro a ha _
    simp only [mem_Ico] at ha
    rcases h.bool a ha.2 j ha.1 with h0 | h0 <;> omega
  rw [Finset.sum_pair hne] at h2
  omega

theorem Core.last {n : ℕ} {x : ℕ → ℕ → ℤ} (h : Core n x) (hn : 0 < n) : x (n - 1) (n - 1) = 1 := by
  obtain ⟨i, h1, h2, h3⟩ := h.col_exists (show n - 1 < n by omega)
  have : i = n - 1 := by omega
  rwa [this] at h3

theorem Core.row_zero {n : ℕ} {x : ℕ → ℕ → ℤ} (h : Core n x) {i : ℕ} (hi : i < n) (h0 : x i i = 0)
    {j : ℕ} (hj : j ≤ i) : x i j = 0 := by
  rcases h.bool i hi j hj with h1 | h1
  · exact h1
  · have := h.row_mono hi h1 hj le_rfl
    omega

/-- In an accepted assignment the row of a selected bin `s..e` is the indicator of `s..e`. -/
theorem Core.row_bin {n : ℕ} {x : ℕ → ℕ → ℤ} (h : Core n x) {s e : ℕ} (hb : IsBin n (diag x) s e)
    {j : ℕ} (hj : j ≤ e) : x e j = if s ≤ j then 1 else 0 := by
  obtain ⟨hse, hen, hsole, hstart, hin⟩ := hb
  have hee : x e e = 1 := (diag_eq_true h hen).1 hsole
  split_ifs with hsj
  · obtain ⟨i, hji, hin', hxi⟩ := h.col_exists (show j < n by omega)
    have hii : x i i = 1 := h.row_mono hin' hxi hji le_rfl
    have hie : e ≤ i := by
      by_contra hlt
      have := hin i (by omega) (by omega)
      rw [diag_eq_false h hin'] at this
      omega
    have hxie : x i e = 1 := h.row_mono hin' hxi hj hie
    have := h.col_unique (j := e) le_rfl hen hie hin' hee hxie
    rw [this]; exact hxi
  · rcases h.bool e hen j hj with h0 | h1
    · exact h0
    · exfalso
      rcases hstart with rfl | hs
      · omega
      · have hs1 : x (s - 1) (s - 1) = 1 := (diag_eq_true h (by omega)).1 hs
        have hx : x e (s - 1) = 1 := h.row_mono hen h1 (by omega) (by omega)
        have := h.col_unique (j := s - 1) le_rfl (by omega) (show s - 1 ≤ e by omega) hen hs1 hx
        omega

/-- Every selected end has a (unique) start. -/
theorem exists_start (n : ℕ) (sol : ℕ → Bool) {e : ℕ} (he : e < n) (hs : sol e = true) :
    ∃ s, IsBin n sol s e := by
  classical
  by_cases hex : ∃ k, k < e ∧ sol k = true
  · let k := Nat.findGreatest (fun k => k < e ∧ sol k = true) e
    have hk : k < e ∧ sol k = true := by
      obtain ⟨m, hm⟩ := hex
      exact Nat.findGreatest_spec (P := fun k => k < e ∧ sol k = true) (n := e) (by omega : m ≤ e) hm
    refine ⟨k + 1, by omega, he, hs, Or.inr (by simpa using hk.2), ?_⟩
    intro m hm1 hm2
    by_contra hne
    have : m ≤ k := Nat.le_findGreatest (P := fun k => k < e ∧ sol k = true) (by omega) ⟨hm2, by simpa using hne⟩
    omega
  · refine ⟨0, by omega, he, hs, Or.inl rfl, ?_⟩
    intro k _ hk
    by_contra hne
    exact hex ⟨k, hk, by simpa using hne⟩

theorem isBin_start_unique {n : ℕ} {sol : ℕ → Bool} {s s' e : ℕ} (h : IsBin n sol s e) (h' : IsBin n sol s' e) :
    s = s' := by
  obtain ⟨a1, a2, a3, a4, a5⟩ := h
  obtain ⟨b1, b2, b3, b4, b5⟩ := h'
  rcases lt_trichotomy s s' with hlt | heq | hlt
  · rcases b4 with rfl | hb
    · omega
    · have := a5 (s' - 1) (by omega) (by omega)
      simp [hb] at this
  · exact heq
  · rcases a4 with rfl | hb
    · omega
    · have := b5 (s - 1) (by omega) (by omega)
      simp [hb] at this

/-- Two bins are equal or disjoint and ordered. -/
theorem isBin_ordered {n : ℕ} {sol : ℕ → Bool} {s e s' e' : ℕ} (h : IsBin n sol s e) (h' : IsBin n sol s' e')
    (hlt : e < e') : e < s' := by
  obtain ⟨a1, a2, a3, a4, a5⟩ := h
  obtain ⟨b1, b2, b3, b4, b5⟩ := h'
  by_contra hcon
  have := b5 e (by omega) hlt
  simp [a3] at this

/-- Every pre-bin belongs to exactly one bin. -/
theorem isBin_cover {n : ℕ} {sol : ℕ → Bool} (h : IsBinning n sol) {k : ℕ} (hk : k < n) :
    ∃ s e, IsBin n sol s e ∧ s ≤ k ∧ k ≤ e := by
  classical
  have hex : ∃ e, k ≤ e ∧ sol e = true := ⟨n - 1, by omega, h.2⟩
  let e := Nat.find hex
  have he : k ≤ e ∧ sol e = true := Nat.find_spec hex
  have hen : e < n := by
    have : e ≤ n - 1 := Nat.find_min' hex ⟨by omega, h.2⟩
    have := h.1
    omega
  obtain ⟨s, hs⟩ := exists_start n sol hen he.2
  refine ⟨s, e, hs, ?_, he.1⟩
  by_contra hcon
  rcases hs.2.2.2.1 with h0 | h0
  · omega
  · have h1 : e ≤ s - 1 := Nat.find_min' hex ⟨by omega, h0⟩
    have := hs.1
    omega

theorem isBin_cover_unique {n : ℕ} {sol : ℕ → Bool} {s e s' e' k : ℕ} (h : IsBin n sol s e) (h' : IsBin n sol s' e')
    (h1 : s ≤ k) (h2 : k ≤ e) (h3 : s' ≤ k) (h4 : k ≤ e') : s = s' ∧ e = e' := by
  have hee : e = e' := by
    rcases lt_trichotomy e e' with hlt | heq | hlt
    · have := isBin_ordered h h' hlt; omega
    · exact heq
    · have := isBin_ordered h' h hlt; omega
  subst hee
  exact ⟨isBin_start_unique h h', rfl⟩

section
variable {R : Type*} [CommRing R]

theorem sum_indicator_tail (c : ℕ → R) (s e : ℕ) :
    ∑ j ∈ range (e + 1), c j * (if s ≤ j then (1 : R) else 0) = ∑ k ∈ Icc s e, c k := by
  simp only [mul_ite, mul_one, mul_zero]
  rw [← Finset.sum_filter]
  apply Finset.sum_congr _ (fun _ _ => rfl)
  ext j
  simp only [mem_filter, mem_range, mem_Icc]
  omega

theorem sum_telescope (f : ℕ → R) (s e : ℕ) (hse : s ≤ e) :
    ∑ j ∈ range e, (f j - f (j + 1)) * (if s ≤ j then (1 : R) else 0) = f s - f e := by
  induction e, hse using Nat.le_induction with
  | base =>
    rw [sub_self]
    apply Finset.sum_eq_zero
    intro j hj
    simp only [mem_range] at hj
    rw [if_neg (by omega), mul_zero]
  | succ e hse ih =>
    rw [Finset.sum_range_succ, ih, if_pos hse]
    ring


/-- The row expression of a selected bin is the coefficient of that bin. -/
theorem Core.rowRate_bin {n : ℕ} {x : ℕ → ℕ → ℤ} (h : Core n x) (D : ℕ → ℕ → R) {s e : ℕ}
    (hb : IsBin n (diag x) s e) : rowRate D x e = D e s := by
  unfold rowRate rowS
  have h1 : ∑ j ∈ range e, (D e j - D e (j + 1)) * ((x e j : ℤ) : R)
      = ∑ j ∈ range e, (D e j - D e (j + 1)) * (if s ≤ j then (1 : R) else 0) := by
    apply Finset.sum_congr rfl
    intro j hj
    simp only [mem_range] at hj
    rw [h.row_bin hb (by omega)]
    split_ifs <;> simp
  rw [h1, sum_telescope (D e) s e hb.1, h.row_bin hb le_rfl, if_pos hb.1]
  simp

theorem Core.rowRate_none {n : ℕ} {x : ℕ → ℕ → ℤ} (h : Core n x) (D : ℕ → ℕ → R) {e : ℕ} (he : e < n)
    (hb : x e e = 0) : rowRate D x e = 0 := by
  unfold rowRate rowS
  rw [hb, Finset.sum_eq_zero]
  · simp
  · intro j hj
    simp only [mem_range] at hj
    rw [h.row_zero he hb (by omega)]
    simp

end

theorem Core.rowTotal_bin {n : ℕ} {x : ℕ → ℕ → ℤ} (h : Core n x) (c : ℕ → ℤ) {s e : ℕ}
    (hb : IsBin n (diag x) s e) : rowTotal c x e = binTotal c s e := by
  unfold rowTotal binTotal
  rw [← sum_indicator_tail c s e]
  apply Finset.sum_congr rfl
  intro j hj
  simp only [mem_range] at hj
  rw [h.row_bin hb (by omega)]

theorem Core.rowTotal_none {n : ℕ} {x : ℕ → ℕ → ℤ} (h : Core n x) (c : ℕ → ℤ) {e : ℕ} (he : e < n)
    (hb : x e e = 0) : rowTotal c x e = 0 := by
  unfold rowTotal
  apply Finset.sum_eq_zero
  intro j hj
  simp only [mem_range] at hj
  rw [h.row_zero he hb (by omega), mul_zero]

theorem Core.trace {n : ℕ} {x : ℕ → ℕ → ℤ} (h : Core n x) :
    ∑ i ∈ range n, x i i = numBins n (diag x) := by
  unfold numBins
  rw [Finset.card_filter, Nat.cast_sum]
  apply Finset.sum_congr rfl
  intro i hi
  simp only [mem_range] at hi
  rcases h.bool i hi i le_rfl with h0 | h1
  · simp [diag, h0]
  · simp [diag, h1]

theorem Core.isBinning {n : ℕ} {x : ℕ → ℕ → ℤ} (h : Core n x) (hn : 0 < n) : IsBinning n (diag x) :=
  ⟨hn, (diag_eq_true h (by omega)).2 (h.last hn)⟩

/-- The canonical assignment of a binning: `x i j = 1` iff `i` is the end of a bin containing `j`. -/
def encode (sol : ℕ → Bool) (i j : ℕ) : ℤ :=
  if sol i = true ∧ ∀ k, k < i → j ≤ k → sol k = false then 1 else 0

theorem encode_diag (sol : ℕ → Bool) : diag (encode sol) = sol := by
  funext i
  unfold diag encode
  by_cases h : sol i = true
  · rw [if_pos ⟨h, fun k h1 h2 => by omega⟩]; simp [h]
  · rw [if_neg (fun hc => h hc.1)]; simp at h; simp [h]

theorem encode_core {n : ℕ} {sol : ℕ → Bool} (h : IsBinning n sol) : Core n (encode sol) := by
  refine ⟨?_, ?_, ?_⟩
  · intro i _ j _
    unfold encode; split_ifs <;> simp
  · intro j hj
    obtain ⟨s, e, hb, hs, he⟩ := isBin_cover h hj
    rw [Finset.sum_eq_single e]
    · unfold encode
      rw [if_pos ⟨hb.2.2.1, fun k h1 h2 => hb.2.2.2.2 k (by omega) h1⟩]
    · intro i hi hne
      simp only [mem_Ico] at hi
      unfold encode
      rw [if_neg]
      rintro ⟨h1, h2⟩
      rcases Nat.lt_or_gt_of_ne hne with hlt | hgt
      · have := hb.2.2.2.2 i (by omega) hlt
        simp [h1] at this
      · have := h2 e hgt he
        simp [hb.2.2.1] at this
    · intro hne
      exact absurd (by simp only [mem_Ico]; exact ⟨he, hb.2.1⟩) hne
  · intro i _ j hji
    unfold encode
    split_ifs with h1 h2
    · omega
    · exact absurd ⟨h1.1, fun k hk hk2 => h1.2 k hk (by omega)⟩ h2
    · omega
    · omega

end OptBinning
