import Verif.Spec.Optimal
import Verif.Lemmas.IsoDiv
import Verif.Lemmas.Refine

/-!
# The preprocessing cuts keep an optimal binning
-/
namespace OptBinning
open Finset Spec Iso

/-- An admissible monotone binning which respects the cuts is accepted. -/
theorem feasibleCore.complete_cuts {R : Type*} [CommRing R] [LinearOrder R] [IsStrictOrderedRing R]
    {o : Opts} {M : R} (hM : 0 ≤ M) {dat : Data R} {sol : ℕ → Bool}
    (hD : ∀ i < dat.n, ∀ j ≤ i, 0 ≤ dat.D i j ∧ dat.D i j ≤ M) (hrec : ∀ k < dat.n, 0 ≤ dat.records k)
    (htr : (o.trend = .ascending ∧ ∀ k, k + 1 < dat.n → sol k = true → ∀ i ≤ k, dat.D (k + 1) i ≤ dat.D (k + 1) (k + 1)) ∨
      (o.trend = .descending ∧ ∀ k, k + 1 < dat.n → sol k = true → ∀ i ≤ k, dat.D (k + 1) (k + 1) ≤ dat.D (k + 1) i))
    (h : Admissible o dat.n sol dat.nonevent dat.event (fun s e => dat.D e s)) :
    ∃ a : Assign, feasibleCore o M dat a ∧ a.x = encode sol := by
  have h' : Admissible { o with minRateDiffZero := false, scenario := false } dat.n sol dat.nonevent dat.event
      (fun s e => dat.D e s) := (admissible_opts_congr false false).2 h
  obtain ⟨a, ha, hx⟩ := feasibleCore.complete (o := { o with minRateDiffZero := false, scenario := false }) hM hD hrec
    (by unfold cutsOn; simp) (by rcases htr with ⟨ht, -⟩ | ⟨ht, -⟩ <;> simp [ExactTrend, ht])
    (by rcases htr with ⟨ht, -⟩ | ⟨ht, -⟩ <;> simp [ht]) h'
  refine ⟨a, ?_, hx⟩
  obtain ⟨b1, b2, b3, b4, b5, b6, b7, b8, b9, b10⟩ := ha
  refine ⟨b1, b2, b3, b4, b5, b6, b7, ?_, b9, b10⟩
  have hz : ∀ k, sol k ≠ true → a.x k k = 0 := by
    intro k hk
    rw [hx]
    unfold encode
    simp [hk]
  unfold monotonicity at b8 ⊢
  rcases htr with ⟨ht, hc⟩ | ⟨ht, hc⟩ <;> simp only [ht] at b8 ⊢
  · refine ⟨b8.1, fun _ i _ hi hpos => ⟨hz i fun hs => ?_, fun j _ hj hpos2 => hz (i + j) fun hs => ?_⟩⟩
    · have := hc i hi hs i le_rfl
      rw [gt_iff_lt, sub_pos] at hpos
      exact absurd this (not_le.2 hpos)
    · have e : i + 1 + j = i + j + 1 := by omega
      rw [e, gt_iff_lt, sub_pos] at hpos2
      exact absurd (hc (i + j) (by omega) hs i (by omega)) (not_le.2 hpos2)
  · refine ⟨b8.1, fun _ i _ hi hpos => ⟨hz i fun hs => ?_, fun j _ hj hpos2 => hz (i + j) fun hs => ?_⟩⟩
    · have := hc i hi hs i le_rfl
      rw [sub_neg] at hpos
      exact absurd this (not_le.2 hpos)
    · have e : i + 1 + j = i + j + 1 := by omega
      rw [e, sub_neg] at hpos2
      exact absurd (hc (i + j) (by omega) hs i (by omega)) (not_le.2 hpos2)

theorem share_tot (x : ℕ → ℤ) (X : ℝ) (s e : ℕ) : binTotal (fun k => (x k : ℝ) / X) s e = ((binTotal x s e : ℤ) : ℝ) / X := by
  unfold binTotal
  simp only [div_eq_mul_inv]
  rw [← Finset.sum_mul]
  push_cast
  rfl

theorem total_pos {n : ℕ} {x : ℕ → ℤ} (hx : ∀ k < n, 0 < x k) {s e : ℕ} (hse : s ≤ e) (he : e < n) : 0 < binTotal x s e :=
  Finset.sum_pos (fun k hk => hx k (by rw [mem_Icc] at hk; omega)) ⟨s, by simp [hse]⟩

theorem rate_le_iff {x y x' y' : ℤ} (hx : 0 < x) (hy : 0 < y) (hx' : 0 < x') (hy' : 0 < y') :
    ((x : ℤ) : ℚ) / ((y : ℚ) + (x : ℚ)) ≤ (x' : ℚ) / ((y' : ℚ) + (x' : ℚ)) ↔ x * y' ≤ x' * y := by
  have h1 : (0 : ℚ) < x := by exact_mod_cast hx
  have h2 : (0 : ℚ) < y := by exact_mod_cast hy
  have h3 : (0 : ℚ) < x' := by exact_mod_cast hx'
  have h4 : (0 : ℚ) < y' := by exact_mod_cast hy'
  rw [div_le_div_iff₀ (by positivity) (by positivity)]
  have : x * y' ≤ x' * y ↔ (x : ℚ) * y' ≤ x' * y := by exact_mod_cast Iff.rfl
  rw [this]
  constructor <;> intro h <;> linarith

/-- For every binning with monotone event rates there is one which is at least as good and respects the cuts. -/
theorem better_trend {n : ℕ} {ne ev : ℕ → ℤ} (hne : ∀ k < n, 0 < ne k) (hev : ∀ k < n, 0 < ev k) (d : Divergence) {t : Trend}
    (ht : t = .ascending ∨ t = .descending) {sol : ℕ → Bool} (hb : IsBinning n sol) (htr : TrendHolds n sol (eventRate ne ev) t) :
    ∃ sol', IsBinning n sol' ∧ TrendHolds n sol' (eventRate ne ev) t ∧ numBins n sol' ≤ numBins n sol ∧
      ((t = .ascending ∧ ∀ k, k + 1 < n → sol' k = true → ∀ i ≤ k, eventRate ne ev i (k + 1) ≤ eventRate ne ev (k + 1) (k + 1)) ∨
        (t = .descending ∧ ∀ k, k + 1 < n → sol' k = true → ∀ i ≤ k, eventRate ne ev (k + 1) (k + 1) ≤ eventRate ne ev i (k + 1))) ∧
      totalOverBins n sol (binDivergence d.fn n ne ev) ≤ totalOverBins n sol' (binDivergence d.fn n ne ev) := by
  have hn := hb.1
  set X : ℝ := ((binTotal ev 0 (n - 1) : ℤ) : ℝ) with hX
  set Y : ℝ := ((binTotal ne 0 (n - 1) : ℤ) : ℝ) with hY
  have hXp : 0 < X := by rw [hX]; exact_mod_cast total_pos hev (Nat.zero_le _) (by omega)
  have hYp : 0 < Y := by rw [hY]; exact_mod_cast total_pos hne (Nat.zero_le _) (by omega)
  have hA : ∀ k < n, 0 < (ev k : ℝ) / X := fun k hk => div_pos (by exact_mod_cast hev k hk) hXp
  have hB : ∀ k < n, 0 < (ne k : ℝ) / Y := fun k hk => div_pos (by exact_mod_cast hne k hk) hYp
  have hrate : ∀ s e s' e', s ≤ e → e < n → s' ≤ e' → e' < n →
      (eventRate ne ev s e ≤ eventRate ne ev s' e' ↔ binTotal ev s e * binTotal ne s' e' ≤ binTotal ev s' e' * binTotal ne s e) := by
    intro s e s' e' h1 h2 h3 h4
    exact rate_le_iff (total_pos hev h1 h2) (total_pos hne h1 h2) (total_pos hev h3 h4) (total_pos hne h3 h4)
  have cross : ∀ x y x' y' : ℤ, ((x : ℝ) / X * ((y' : ℝ) / Y) ≤ (x' : ℝ) / X * ((y : ℝ) / Y) ↔ x * y' ≤ x' * y) := by
    intro x y x' y'
    rw [div_mul_div_comm, div_mul_div_comm, div_le_div_iff_of_pos_right (by positivity)]
    exact_mod_cast Iff.rfl
  have hcut : ∀ k i, k + 1 < n → i ≤ k → binTotal ev i k * ne (k + 1) ≤ ev (k + 1) * binTotal ne i k →
      eventRate ne ev i (k + 1) ≤ eventRate ne ev (k + 1) (k + 1) := by
    intro k i hk hi h
    rw [hrate i (k + 1) (k + 1) (k + 1) (by omega) hk le_rfl hk]
    have e1 : ∀ f : ℕ → ℤ, binTotal f i (k + 1) = binTotal f i k + f (k + 1) := by
      intro f; unfold binTotal; rw [Finset.sum_Icc_succ_top (by omega)]
    have e2 : ∀ f : ℕ → ℤ, binTotal f (k + 1) (k + 1) = f (k + 1) := by intro f; simp [binTotal]
    rw [e1, e1, e2, e2]
    linarith
  have hcut' : ∀ k i, k + 1 < n → i ≤ k → ev (k + 1) * binTotal ne i k ≤ binTotal ev i k * ne (k + 1) →
      eventRate ne ev (k + 1) (k + 1) ≤ eventRate ne ev i (k + 1) := by
    intro k i hk hi h
    rw [hrate (k + 1) (k + 1) i (k + 1) le_rfl hk (by omega) hk]
    have e1 : ∀ f : ℕ → ℤ, binTotal f i (k + 1) = binTotal f i k + f (k + 1) := by
      intro f; unfold binTotal; rw [Finset.sum_Icc_succ_top (by omega)]
    have e2 : ∀ f : ℕ → ℤ, binTotal f (k + 1) (k + 1) = f (k + 1) := by intro f; simp [binTotal]
    rw [e1, e1, e2, e2]
    linarith
  rcases ht with rfl | rfl
  · obtain ⟨sol', g1, g2, g3, g4, g5⟩ := better_asc hA hB (supported_fn d) hb (fun s e s' e' h1 h2 h3 => by
      rw [share_tot, share_tot, share_tot, share_tot, cross]
      exact (hrate s e s' e' h1.1 h1.2.1 h2.1 h2.2.1).1 (htr s e s' e' h1 h2 h3 trivial trivial))
    refine ⟨sol', g1, ?_, g4, Or.inl ⟨rfl, fun k hk hs i hi => ?_⟩, ?_⟩
    · intro s e s' e' h1 h2 h3 _ _
      have := g2 s e s' e' h1 h2 h3
      rw [share_tot, share_tot, share_tot, share_tot, cross] at this
      exact (hrate s e s' e' h1.1 h1.2.1 h2.1 h2.2.1).2 this
    · have := (g3 k hk hs i hi).le
      rw [share_tot, share_tot, cross] at this
      exact hcut k i hk hi this
    · simp only [share_tot] at g5
      exact g5
  · obtain ⟨sol', g1, g2, g3, g4, g5⟩ := better_asc hB hA (supported_fn d).symm hb (fun s e s' e' h1 h2 h3 => by
      rw [share_tot, share_tot, share_tot, share_tot, mul_comm, mul_comm (_ / Y), cross]
      exact (hrate s' e' s e h2.1 h2.2.1 h1.1 h1.2.1).1 (htr s e s' e' h1 h2 h3 trivial trivial))
    refine ⟨sol', g1, ?_, g4, Or.inr ⟨rfl, fun k hk hs i hi => ?_⟩, ?_⟩
    · intro s e s' e' h1 h2 h3 _ _
      have := g2 s e s' e' h1 h2 h3
      rw [share_tot, share_tot, share_tot, share_tot, mul_comm, mul_comm (_ / Y), cross] at this
      exact (hrate s' e' s e h2.1 h2.2.1 h1.1 h1.2.1).2 this
    · have := (g3 k hk hs i hi).le
      rw [share_tot, share_tot, mul_comm, mul_comm (_ / Y), cross] at this
      exact hcut' k i hk hi this
    · simp only [share_tot] at g5
      exact g5

end OptBinning
