import Verif.Model.Metrics
import Mathlib.Algebra.Order.Chebyshev
import Mathlib.Tactic.FieldSimp
import Mathlib.Tactic.Linarith
import Mathlib.Tactic.Positivity

/-! # Inequalities for the divergences -/
namespace OptBinning
open Spec (Row)

theorem xlogy_eq (x y : ℝ) : xlogy x y = x * Real.log y := by
  unfold xlogy; split_ifs with h <;> simp [*]

theorem logsum {x₁ x₂ y₁ y₂ : ℝ} (hx₁ : 0 < x₁) (hx₂ : 0 < x₂) (hy₁ : 0 < y₁) (hy₂ : 0 < y₂) :
    (x₁ + x₂) * Real.log ((x₁ + x₂) / (y₁ + y₂)) ≤ x₁ * Real.log (x₁ / y₁) + x₂ * Real.log (x₂ / y₂) := by
  have key : ∀ x y X Y : ℝ, 0 < x → 0 < y → 0 < X → 0 < Y →
      x * Real.log (X / Y) + (x - y * X / Y) ≤ x * Real.log (x / y) := by
    intro x y X Y hx hy hX hY
    have h1 : Real.log (X / Y * (y / x)) ≤ X / Y * (y / x) - 1 := Real.log_le_sub_one_of_pos (by positivity)
    have h2 : Real.log (X / Y * (y / x)) = Real.log (X / Y) - Real.log (x / y) := by
      rw [← Real.log_div (by positivity) (by positivity)]
      congr 1; field_simp
    rw [h2] at h1
    have h3 : x * (X / Y * (y / x)) = y * X / Y := by field_simp
    nlinarith [mul_le_mul_of_nonneg_left h1 hx.le]
  have a := key x₁ y₁ (x₁ + x₂) (y₁ + y₂) hx₁ hy₁ (by positivity) (by positivity)
  have b := key x₂ y₂ (x₁ + x₂) (y₁ + y₂) hx₂ hy₂ (by positivity) (by positivity)
  have c : y₁ * (x₁ + x₂) / (y₁ + y₂) + y₂ * (x₁ + x₂) / (y₁ + y₂) = x₁ + x₂ := by
    field_simp
  nlinarith

/-- What all divergences have in common on positive shares. -/
structure GoodDiv (D : ℝ → ℝ → ℝ) : Prop where
  nonneg : ∀ x y, 0 < x → 0 < y → 0 ≤ D x y
  symm : ∀ x y, 0 < x → 0 < y → D x y = D y x
  zero_iff : ∀ x y, 0 < x → 0 < y → (D x y = 0 ↔ x = y)
  subadd : ∀ x₁ x₂ y₁ y₂, 0 < x₁ → 0 < x₂ → 0 < y₁ → 0 < y₂ → D (x₁ + x₂) (y₁ + y₂) ≤ D x₁ y₁ + D x₂ y₂

theorem jeffrey_eq (x y : ℝ) (hx : 0 < x) (hy : 0 < y) :
    jeffrey x y = x * Real.log (x / y) + y * Real.log (y / x) := by
  rw [jeffrey, xlogy_eq, Real.log_div hx.ne' hy.ne', Real.log_div hy.ne' hx.ne']; ring

theorem goodDiv_jeffrey : GoodDiv jeffrey where
  nonneg x y hx hy := by
    rw [jeffrey, xlogy_eq, Real.log_div hx.ne' hy.ne']
    rcases le_total x y with h | h
    · have := Real.log_le_log hx h; nlinarith
    · have := Real.log_le_log hy h; nlinarith
  symm x y hx hy := by rw [jeffrey_eq x y hx hy, jeffrey_eq y x hy hx]; ring
  zero_iff x y hx hy := by
    rw [jeffrey, xlogy_eq]
    constructor
    · intro h
      rcases mul_eq_zero.mp h with h | h
      · linarith
      · rw [Real.log_div hx.ne' hy.ne', sub_eq_zero] at h
        exact Real.log_injOn_pos (Set.mem_Ioi.mpr hx) (Set.mem_Ioi.mpr hy) h
    · rintro rfl; simp
  subadd x₁ x₂ y₁ y₂ h1 h2 h3 h4 := by
    rw [jeffrey_eq _ _ (by positivity) (by positivity), jeffrey_eq _ _ h1 h3, jeffrey_eq _ _ h2 h4]
    have := logsum h1 h2 h3 h4
    have := logsum h3 h4 h1 h2
    linarith

theorem jensenShannon_eq (x y : ℝ) :
    jensenShannon x y = (x * Real.log (x / ((x + y) / 2)) + y * Real.log (y / ((x + y) / 2))) / 2 := by
  simp only [jensenShannon, kullbackLeibler, xlogy_eq]

theorem mul_log_ge {x m : ℝ} (hx : 0 < x) (hm : 0 < m) : x - m ≤ x * Real.log (x / m) := by
  have h := Real.log_le_sub_one_of_pos (div_pos hm hx)
  rw [Real.log_div hm.ne' hx.ne'] at h
  rw [Real.log_div hx.ne' hm.ne']
  have h3 : x * (m / x) = m := by field_simp
  nlinarith [mul_le_mul_of_nonneg_left h hx.le]

theorem mul_log_gt {x m : ℝ} (hx : 0 < x) (hm : 0 < m) (hne : x ≠ m) : x - m < x * Real.log (x / m) := by
  have h := Real.log_lt_sub_one_of_pos (div_pos hm hx) (by
    intro h; rw [div_eq_one_iff_eq hx.ne'] at h; exact hne h.symm)
  rw [Real.log_div hm.ne' hx.ne'] at h
  rw [Real.log_div hx.ne' hm.ne']
  have h3 : x * (m / x) = m := by field_simp
  nlinarith [mul_lt_mul_of_pos_left h hx]

theorem goodDiv_jensenShannon : GoodDiv jensenShannon where
  nonneg x y hx hy := by
    rw [jensenShannon_eq]
    have := mul_log_ge hx (show 0 < (x + y) / 2 by positivity)
    have := mul_log_ge hy (show 0 < (x + y) / 2 by positivity)
    linarith
  symm x y hx hy := by rw [jensenShannon_eq, jensenShannon_eq, add_comm y x]; ring
  zero_iff x y hx hy := by
    rw [jensenShannon_eq]
    constructor
    · intro h
      by_contra hne
      have h1 := mul_log_gt hx (show 0 < (x + y) / 2 by positivity) (by intro h; apply hne; linarith)
      have h2 := mul_log_ge hy (show 0 < (x + y) / 2 by positivity)
      linarith
    · rintro rfl
      have : (x + x) / 2 = x := by ring
      rw [this, div_self hx.ne']; simp
  subadd x₁ x₂ y₁ y₂ h1 h2 h3 h4 := by
    simp only [jensenShannon_eq]
    have a := logsum h1 h2 (show 0 < (x₁ + y₁) / 2 by positivity) (show 0 < (x₂ + y₂) / 2 by positivity)
    have b := logsum h3 h4 (show 0 < (x₁ + y₁) / 2 by positivity) (show 0 < (x₂ + y₂) / 2 by positivity)
    have e : (x₁ + y₁) / 2 + (x₂ + y₂) / 2 = (x₁ + x₂ + (y₁ + y₂)) / 2 := by ring
    rw [e] at a b
    linarith

theorem hellinger_eq (x y : ℝ) (hx : 0 < x) (hy : 0 < y) : hellinger x y = (x + y) / 2 - Real.sqrt (x * y) := by
  rw [hellinger, Real.sqrt_mul hx.le]
  have := Real.sq_sqrt hx.le
  have := Real.sq_sqrt hy.le
  nlinarith

theorem goodDiv_hellinger : GoodDiv hellinger where
  nonneg x y _ _ := by unfold hellinger; positivity
  symm x y _ _ := by unfold hellinger; ring
  zero_iff x y hx hy := by
    unfold hellinger
    rw [div_eq_zero_iff]
    constructor
    · rintro (h | h)
      · have := pow_eq_zero_iff (two_ne_zero) |>.mp h
        exact (Real.sqrt_inj hx.le hy.le).mp (by linarith)
      · norm_num at h
    · rintro rfl; left; simp
  subadd x₁ x₂ y₁ y₂ h1 h2 h3 h4 := by
    rw [hellinger_eq _ _ (by positivity) (by positivity), hellinger_eq _ _ h1 h3, hellinger_eq _ _ h2 h4]
    have : Real.sqrt (x₁ * y₁) + Real.sqrt (x₂ * y₂) ≤ Real.sqrt ((x₁ + x₂) * (y₁ + y₂)) := by
      apply Real.le_sqrt_of_sq_le
      rw [Real.sqrt_mul h1.le, Real.sqrt_mul h2.le]
      have a1 := Real.sq_sqrt h1.le
      have a2 := Real.sq_sqrt h2.le
      have a3 := Real.sq_sqrt h3.le
      have a4 := Real.sq_sqrt h4.le
      have := sq_nonneg (Real.sqrt x₁ * Real.sqrt y₂ - Real.sqrt x₂ * Real.sqrt y₁)
      generalize Real.sqrt x₁ = a at *
      generalize Real.sqrt x₂ = b at *
      generalize Real.sqrt y₁ = c at *
      generalize Real.sqrt y₂ = d at *
      subst a1 a2 a3 a4
      nlinarith
    linarith

theorem goodDiv_triangular : GoodDiv triangular where
  nonneg x y hx hy := by unfold triangular; positivity
  symm x y _ _ := by unfold triangular; rw [add_comm y x]; congr 1; ring
  zero_iff x y hx hy := by
    unfold triangular
    rw [div_eq_zero_iff]
    constructor
    · rintro (h | h)
      · have := pow_eq_zero_iff (two_ne_zero) |>.mp h
        linarith
      · linarith
    · rintro rfl; left; simp
  subadd x₁ x₂ y₁ y₂ h1 h2 h3 h4 := by
    unfold triangular
    rw [div_add_div _ _ (by positivity) (by positivity), div_le_div_iff₀ (by positivity) (by positivity)]
    have ha : 0 < x₁ + y₁ := by positivity
    have hb : 0 < x₂ + y₂ := by positivity
    have e1 : x₁ + x₂ - (y₁ + y₂) = (x₁ - y₁) + (x₂ - y₂) := by ring
    have e2 : x₁ + x₂ + (y₁ + y₂) = (x₁ + y₁) + (x₂ + y₂) := by ring
    rw [e1, e2]
    generalize x₁ - y₁ = p
    generalize x₂ - y₂ = q
    generalize x₁ + y₁ = a at *
    generalize x₂ + y₂ = b at *
    nlinarith [sq_nonneg (p * b - q * a)]

theorem jensenShannon_le (x y : ℝ) (hx : 0 < x) (hy : 0 < y) : jensenShannon x y ≤ (x + y) / 2 * Real.log 2 := by
  rw [jensenShannon_eq]
  have h : ∀ a b : ℝ, 0 < a → 0 < b → a * Real.log (a / ((a + b) / 2)) ≤ a * Real.log 2 := by
    intro a b ha hb
    apply mul_le_mul_of_nonneg_left _ ha.le
    apply Real.log_le_log (by positivity)
    rw [div_le_iff₀ (by positivity)]; linarith
  have h1 := h x y hx hy
  have h2 := h y x hy hx
  rw [add_comm y x] at h2
  linarith

theorem hellinger_le (x y : ℝ) (hx : 0 < x) (hy : 0 < y) : hellinger x y ≤ (x + y) / 2 := by
  rw [hellinger_eq x y hx hy]; linarith [Real.sqrt_nonneg (x * y)]

theorem triangular_le (x y : ℝ) (hx : 0 < x) (hy : 0 < y) : triangular x y ≤ x + y := by
  unfold triangular
  rw [div_le_iff₀ (by positivity)]; nlinarith [mul_pos hx hy]

end OptBinning
