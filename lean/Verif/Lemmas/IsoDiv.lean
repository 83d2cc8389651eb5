import Verif.Lemmas.Isotonic
import Verif.Model.Params
import Mathlib.Analysis.SpecialFunctions.Log.Basic
import Mathlib.Analysis.SpecialFunctions.Sqrt

/-!
# Supporting functionals of the four divergences, and binnings with ascending event rates
-/
namespace OptBinning.Iso
open Finset Spec

/-- At every point of the open quadrant the divergence has a supporting linear functional. -/
def Supported (F : ℝ → ℝ → ℝ) : Prop := ∀ a b, 0 < a → 0 < b → ∃ α β : ℝ, F a b = α * a + β * b ∧ ∀ p q, 0 < p → 0 < q → α * p + β * q ≤ F p q

theorem jeffrey_eq (p q : ℝ) : jeffrey p q = (p - q) * Real.log (p / q) := by
  unfold jeffrey xlogy
  split_ifs with h
  · rw [h, zero_mul]
  · rfl

theorem supported_jeffrey : Supported jeffrey := by
  intro a b ha hb
  refine ⟨Real.log (a / b) + 1 - b / a, 1 - a / b - Real.log (a / b), ?_, ?_⟩
  · rw [jeffrey_eq]; field_simp; ring
  · intro p q hp hq
    rw [jeffrey_eq]
    have h1 : Real.log (p / q) = Real.log (a / b) + Real.log ((p * b) / (q * a)) := by
      rw [← Real.log_mul (by positivity) (by positivity)]
      congr 1; field_simp
    have h2 := Real.log_le_sub_one_of_pos (show 0 < (p * b) / (q * a) by positivity)
    have h3 := Real.one_sub_inv_le_log_of_pos (show 0 < (p * b) / (q * a) by positivity)
    rw [inv_div] at h3
    rw [h1]
    have e1 := mul_le_mul_of_nonneg_left h3 hp.le
    have e2 := mul_le_mul_of_nonneg_left h2 hq.le
    have e3 : p * (1 - q * a / (p * b)) = p - q * (a / b) := by field_simp
    have e4 : q * (p * b / (q * a) - 1) = p * (b / a) - q := by field_simp
    nlinarith

theorem log_gibbs {p q a b : ℝ} (hp : 0 < p) (hq : 0 < q) (ha : 0 < a) (hb : 0 < b) :
    p * Real.log (a / (a + b)) + q * Real.log (b / (a + b)) ≤ p * Real.log (p / (p + q)) + q * Real.log (q / (p + q)) := by
  have h1 := Real.log_le_sub_one_of_pos (show 0 < (a / (a + b)) / (p / (p + q)) by positivity)
  have h2 := Real.log_le_sub_one_of_pos (show 0 < (b / (a + b)) / (q / (p + q)) by positivity)
  rw [Real.log_div (by positivity) (by positivity)] at h1 h2
  have e1 := mul_le_mul_of_nonneg_left h1 hp.le
  have e2 := mul_le_mul_of_nonneg_left h2 hq.le
  have e3 : p * (a / (a + b) / (p / (p + q)) - 1) + q * (b / (a + b) / (q / (p + q)) - 1) = 0 := by
    field_simp; ring
  linarith

theorem jensenShannon_eq {p q : ℝ} (hp : 0 < p) (hq : 0 < q) :
    jensenShannon p q = (p * (Real.log 2 + Real.log (p / (p + q))) + q * (Real.log 2 + Real.log (q / (p + q)))) / 2 := by
  unfold jensenShannon kullbackLeibler xlogy
  simp only [hp.ne', hq.ne', if_false]
  have h1 : p / ((p + q) / 2) = 2 * (p / (p + q)) := by field_simp
  have h2 : q / ((p + q) / 2) = 2 * (q / (p + q)) := by field_simp
  rw [h1, h2, Real.log_mul (by norm_num) (by positivity), Real.log_mul (by norm_num) (by positivity)]

theorem supported_jensenShannon : Supported jensenShannon := by
  intro a b ha hb
  refine ⟨(Real.log 2 + Real.log (a / (a + b))) / 2, (Real.log 2 + Real.log (b / (a + b))) / 2, ?_, ?_⟩
  · rw [jensenShannon_eq ha hb]; ring
  · intro p q hp hq
    rw [jensenShannon_eq hp hq]
    have := log_gibbs hp hq ha hb
    linarith

theorem supported_triangular : Supported triangular := by
  intro a b ha hb
  refine ⟨2 * ((a - b) / (a + b)) - ((a - b) / (a + b)) ^ 2, - 2 * ((a - b) / (a + b)) - ((a - b) / (a + b)) ^ 2, ?_, ?_⟩
  · unfold triangular; field_simp; ring
  · intro p q hp hq
    unfold triangular
    set t := (a - b) / (a + b)
    rw [le_div_iff₀ (by positivity)]
    nlinarith [sq_nonneg ((p - q) - t * (p + q))]

theorem supported_hellinger : Supported hellinger := by
  intro a b ha hb
  obtain ⟨x, hx, rfl⟩ : ∃ x : ℝ, 0 < x ∧ x ^ 2 = a := ⟨Real.sqrt a, Real.sqrt_pos.2 ha, Real.sq_sqrt ha.le⟩
  obtain ⟨y, hy, rfl⟩ : ∃ y : ℝ, 0 < y ∧ y ^ 2 = b := ⟨Real.sqrt b, Real.sqrt_pos.2 hb, Real.sq_sqrt hb.le⟩
  refine ⟨(1 - y / x) / 2, (1 - x / y) / 2, ?_, ?_⟩
  · unfold hellinger
    rw [Real.sqrt_sq hx.le, Real.sqrt_sq hy.le]
    field_simp; ring
  · intro p q hp hq
    obtain ⟨u, hu, rfl⟩ : ∃ x : ℝ, 0 < x ∧ x ^ 2 = p := ⟨Real.sqrt p, Real.sqrt_pos.2 hp, Real.sq_sqrt hp.le⟩
    obtain ⟨v, hv, rfl⟩ : ∃ y : ℝ, 0 < y ∧ y ^ 2 = q := ⟨Real.sqrt q, Real.sqrt_pos.2 hq, Real.sq_sqrt hq.le⟩
    unfold hellinger
    rw [Real.sqrt_sq hu.le, Real.sqrt_sq hv.le]
    have h : 0 ≤ (u * y - v * x) ^ 2 / (x * y) := by positivity
    have e : (u * y - v * x) ^ 2 / (x * y) = u ^ 2 * (y / x) + v ^ 2 * (x / y) - 2 * u * v := by field_simp; ring
    nlinarith

theorem supported_fn (d : Divergence) : Supported d.fn := by
  cases d
  · exact supported_jeffrey
  · exact supported_jensenShannon
  · exact supported_hellinger
  · exact supported_triangular

theorem Supported.homog {F : ℝ → ℝ → ℝ} (h : Supported F) {a b t : ℝ} (ha : 0 < a) (hb : 0 < b) (ht : 0 < t) : F (t * a) (t * b) = t * F a b := by
  refine le_antisymm ?_ ?_
  · obtain ⟨α, β, h1, h2⟩ := h (t * a) (t * b) (by positivity) (by positivity)
    rw [h1]
    have := mul_le_mul_of_nonneg_left (h2 a b ha hb) ht.le
    linarith
  · obtain ⟨α, β, h1, h2⟩ := h a b ha hb
    rw [h1]
    have := h2 (t * a) (t * b) (by positivity) (by positivity)
    linarith

theorem Supported.symm {F : ℝ → ℝ → ℝ} (h : Supported F) : Supported fun p q => F q p := by
  intro a b ha hb
  obtain ⟨α, β, h1, h2⟩ := h b a hb ha
  refine ⟨β, α, by show F b a = _; rw [h1]; ring, fun p q hp hq => ?_⟩
  have := h2 q p hq hp
  show _ ≤ F q p
  linarith

/-- Every binning with ascending ratio `a : b` is at most as good as one which respects the preprocessing cuts. -/
theorem better_asc {n : ℕ} {a b : ℕ → ℝ} {F : ℝ → ℝ → ℝ} (ha : ∀ k < n, 0 < a k) (hb : ∀ k < n, 0 < b k) (hF : Supported F)
    {sol : ℕ → Bool} (hsol : IsBinning n sol)
    (hasc : ∀ s e s' e', IsBin n sol s e → IsBin n sol s' e' → e < e' → binTotal a s e * binTotal b s' e' ≤ binTotal a s' e' * binTotal b s e) :
    ∃ sol', IsBinning n sol' ∧
      (∀ s e s' e', IsBin n sol' s e → IsBin n sol' s' e' → e < e' → binTotal a s e * binTotal b s' e' ≤ binTotal a s' e' * binTotal b s e) ∧
      (∀ k, k + 1 < n → sol' k = true → ∀ i ≤ k, binTotal a i k * b (k + 1) < a (k + 1) * binTotal b i k) ∧
      numBins n sol' ≤ numBins n sol ∧
      totalOverBins n sol (fun s e => F (binTotal a s e) (binTotal b s e)) ≤
        totalOverBins n sol' (fun s e => F (binTotal a s e) (binTotal b s e)) := by
  have hc : ∀ x : ℝ, ∃ c : ℝ, 0 < x → x < 1 → ∀ y, 0 < y → y < 1 → F x (1 - x) + c * (y - x) ≤ F y (1 - y) := by
    intro x
    by_cases hx : 0 < x ∧ x < 1
    · obtain ⟨α, β, h1, h2⟩ := hF x (1 - x) hx.1 (by linarith)
      refine ⟨α - β, fun _ _ y h3 h4 => ?_⟩
      have := h2 y (1 - y) h3 (by linarith)
      rw [h1]
      linarith
    · exact ⟨0, fun h1 h2 => absurd ⟨h1, h2⟩ hx⟩
  choose c hc using hc
  have hT : Tangent (Set.Ioo 0 1) (fun x => F x (1 - x)) c := fun x hx y hy => hc x hx.1 hx.2 y hy.1 hy.2
  let w : ℕ → ℝ := fun k => a k + b k
  have hw : ∀ k < n, 0 < w k := fun k hk => add_pos (ha k hk) (hb k hk)
  have hWeq : ∀ s e, binTotal w s e = binTotal a s e + binTotal b s e := fun s e => Finset.sum_add_distrib
  have hval : ∀ s e, s ≤ e → e < n → 0 < avg a w s e ∧ avg a w s e < 1 ∧
      binTotal w s e * F (avg a w s e) (1 - avg a w s e) = F (binTotal a s e) (binTotal b s e) := by
    intro s e hse he
    have hA := tot_pos ha hse he
    have hB := tot_pos hb hse he
    have hW := tot_pos hw hse he
    have h1 : 0 < avg a w s e := div_pos hA hW
    have h2 : avg a w s e < 1 := by
      unfold avg
      rw [div_lt_one hW, hWeq]
      linarith
    refine ⟨h1, h2, ?_⟩
    rw [← hF.homog h1 (by linarith) hW]
    have e1 : binTotal w s e * avg a w s e = binTotal a s e := by rw [mul_comm, avg_mul hW]
    rw [mul_sub, mul_one, e1, hWeq]
    congr 1
    ring
  have hord : ∀ s e s' e', s ≤ e → e < n → s' ≤ e' → e' < n →
      (avg a w s e ≤ avg a w s' e' ↔ binTotal a s e * binTotal b s' e' ≤ binTotal a s' e' * binTotal b s e) := by
    intro s e s' e' h1 h2 h3 h4
    unfold avg
    rw [div_le_div_iff₀ (tot_pos hw h1 h2) (tot_pos hw h3 h4), hWeq, hWeq]
    constructor <;> intro h <;> linarith
  obtain ⟨sol', g1, g2, g3, g4, g5⟩ := iso_better (I := Set.Ioo 0 1) hw hT (fun s e h1 h2 => ⟨(hval s e h1 h2).1, (hval s e h1 h2).2.1⟩) hsol
    (fun s e s' e' h1 h2 h3 => (hord s e s' e' h1.1 h1.2.1 h2.1 h2.2.1).2 (hasc s e s' e' h1 h2 h3))
  refine ⟨sol', g1, fun s e s' e' h1 h2 h3 => (hord s e s' e' h1.1 h1.2.1 h2.1 h2.2.1).1 (g2 s e s' e' h1 h2 h3), ?_, g4, ?_⟩
  · intro k hk hs i hi
    have h1 := g3 k hk hs i hi
    rw [← not_le, hord (k + 1) (k + 1) i k le_rfl hk hi (by omega)] at h1
    push Not at h1
    simpa [binTotal] using h1
  · have hconv : ∀ s : ℕ → Bool, totalOverBins n s (fun s e => binTotal w s e * F (avg a w s e) (1 - avg a w s e)) =
        totalOverBins n s (fun s e => F (binTotal a s e) (binTotal b s e)) := by
      intro s
      unfold totalOverBins
      refine Finset.sum_congr rfl fun p hp => ?_
      simp only [binsOf, mem_filter, mem_product, mem_range] at hp
      exact (hval p.1 p.2 hp.2.1 hp.2.2.1).2.2
    rw [← hconv, ← hconv]
    exact g5

end OptBinning.Iso
