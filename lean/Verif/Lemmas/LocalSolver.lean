import Verif.Model.LocalSolver
import Verif.Lemmas.Refine
import Verif.Lemmas.Partition
import Mathlib.Data.List.GetD

/-! # Lemmas on the LocalSolver formulation -/
namespace OptBinning
open Finset Spec

/-- The ends of the bins. -/
def diagLS (s : AssignLS) (i : ℕ) : Bool := s.x i != 0

/-- Basic constraints. -/
structure CoreLS (n : ℕ) (s : AssignLS) : Prop where
  pos : 0 < n
  bool : ∀ i < n, s.x i = 0 ∨ s.x i = 1
  space : searchSpaceLS n s

theorem CoreLS.end_iff {n : ℕ} {s : AssignLS} (h : CoreLS n s) {i : ℕ} (hi : i < n) : diagLS s i = true ↔ s.x i = 1 := by
  rcases h.bool i hi with h0 | h0 <;> simp [diagLS, h0]

theorem CoreLS.not_end_iff {n : ℕ} {s : AssignLS} (h : CoreLS n s) {i : ℕ} (hi : i < n) : diagLS s i = false ↔ s.x i = 0 := by
  rcases h.bool i hi with h0 | h0 <;> simp [diagLS, h0]

theorem CoreLS.isBinning {n : ℕ} {s : AssignLS} (h : CoreLS n s) : IsBinning n (diagLS s) :=
  ⟨h.pos, (h.end_iff (by have := h.pos; omega)).2 h.space.1⟩

theorem CoreLS.last_a {n : ℕ} {s : AssignLS} (h : CoreLS n s) : s.a (n - 1) = 0 := by
  have hn := h.pos
  rw [(h.space.2 (n - 1) (by omega)).1, h.space.1]; ring

/-- `a[i]` counts the pre-bins since the last end. -/
theorem CoreLS.run {n : ℕ} {s : AssignLS} (h : CoreLS n s) : ∀ i < n, ∃ st : ℕ, st ≤ i + 1 ∧ s.a i = (i : ℤ) + 1 - st ∧
    (st = 0 ∨ s.x (st - 1) = 1) ∧ ∀ k, st ≤ k → k ≤ i → s.x k = 0 := by
  intro i
  induction i with
  | zero =>
    intro hi
    have ha := (h.space.2 0 hi).1
    have e : pyPrev n 0 = n - 1 := if_pos rfl
    rw [e, h.last_a] at ha
    rcases h.bool 0 hi with h0 | h0
    · exact ⟨0, by omega, by rw [ha, h0]; simp, Or.inl rfl, fun k _ hk => by
        obtain rfl : k = 0 := by omega
        exact h0⟩
    · exact ⟨1, le_rfl, by rw [ha, h0]; simp, Or.inr h0, fun k h1 h2 => by omega⟩
  | succ i ih =>
    intro hi
    obtain ⟨st, h1, h2, h3, h4⟩ := ih (by omega)
    have ha := (h.space.2 (i + 1) hi).1
    have e : pyPrev n (i + 1) = i := by simp [pyPrev]
    rw [e, h2] at ha
    rcases h.bool (i + 1) hi with h0 | h0
    · refine ⟨st, by omega, by rw [ha, h0]; push_cast; ring, h3, fun k k1 k2 => ?_⟩
      by_cases hk : k = i + 1
      · rw [hk, h0]
      · exact h4 k k1 (by omega)
    · exact ⟨i + 2, by omega, by rw [ha, h0]; push_cast; ring, Or.inr h0, fun k h1 h2 => by omega⟩

/-- `z[e]` is the number of pre-bins of the bin ending in `e`, minus one. -/
theorem CoreLS.z_bin {n : ℕ} {s : AssignLS} (h : CoreLS n s) {st e : ℕ} (hb : IsBin n (diagLS s) st e) : s.z e = (e : ℤ) - st := by
  obtain ⟨b1, b2, b3, b4, b5⟩ := hb
  have hx := (h.end_iff b2).1 b3
  have hz := (h.space.2 e b2).2
  by_cases he : e = 0
  · subst he
    have e1 : pyPrev n 0 = n - 1 := if_pos rfl
    rw [e1, h.last_a] at hz
    rw [hz]
    obtain rfl : st = 0 := by omega
    simp
  · have e1 : pyPrev n e = e - 1 := if_neg he
    rw [e1, hx] at hz
    rcases h.bool (e - 1) (by omega) with h0 | h0
    · obtain ⟨st', h1, h2, h3, h4⟩ := h.run (e - 1) (by omega)
      have hb' : IsBin n (diagLS s) st' e := by
        refine ⟨by omega, b2, b3, ?_, fun k k1 k2 => (h.not_end_iff (by omega)).2 (h4 k k1 (by omega))⟩
        rcases h3 with h3 | h3
        · exact Or.inl h3
        · by_cases hst : st' = 0
          · exact Or.inl hst
          · exact Or.inr ((h.end_iff (by omega)).2 h3)
      obtain rfl := isBin_start_unique ⟨b1, b2, b3, b4, b5⟩ hb'
      rw [hz, h2, h0]
      have : ((e - 1 : ℕ) : ℤ) = e - 1 := by push_cast [Nat.one_le_iff_ne_zero.2 he]; ring
      rw [this]; ring
    · rw [hz, h0]
      have : st = e := by
        by_contra hne
        have := b5 (e - 1) (by omega) (by omega)
        rw [h.not_end_iff (by omega), h0] at this
        exact absurd this (by norm_num)
      rw [this]; ring

theorem CoreLS.z_zero {n : ℕ} {s : AssignLS} (h : CoreLS n s) {i : ℕ} (hi : i < n) (hx : s.x i = 0) : s.z i = 0 := by
  rw [(h.space.2 i hi).2, hx]; ring

theorem atLS_eq (W : ℕ → ℕ → ℤ) {st e : ℕ} (h : st ≤ e) : atLS W e ((e : ℤ) - st) = W e st := by
  unfold atLS
  have e1 : ((e : ℤ) - st).toNat = e - st := by omega
  rw [e1, List.getD_eq_getElem _ _ (by simp), List.getElem_reverse]
  simp only [List.getElem_map, List.getElem_range, List.length_map, List.length_range]
  congr 1
  omega

theorem atLS_bound (W : ℕ → ℕ → ℤ) {M : ℤ} (hM : 0 ≤ M) (hW : ∀ i j, 0 ≤ W i j ∧ W i j ≤ M) (i : ℕ) (k : ℤ) : 0 ≤ atLS W i k ∧ atLS W i k ≤ M := by
  unfold atLS
  by_cases h : k.toNat < (((List.range (i + 1)).map (W i)).reverse).length
  · rw [List.getD_eq_getElem _ _ h]
    have := List.getElem_mem h
    simp only [List.mem_reverse, List.mem_map] at this
    obtain ⟨j, -, hj⟩ := this
    rw [← hj]; exact hW i j
  · rw [List.getD_eq_default _ _ (by omega)]
    exact ⟨le_rfl, hM⟩

/-- The value read for a bin. -/
theorem CoreLS.at_bin {n : ℕ} {s : AssignLS} (h : CoreLS n s) (W : ℕ → ℕ → ℤ) {st e : ℕ} (hb : IsBin n (diagLS s) st e) :
    s.x e = 1 ∧ atLS W e (s.z e) = W e st := by
  refine ⟨(h.end_iff hb.2.1).1 hb.2.2.1, ?_⟩
  rw [h.z_bin hb, atLS_eq W hb.1]

theorem CoreLS.total {n : ℕ} {s : AssignLS} (h : CoreLS n s) : ∑ i ∈ range n, s.x i = (numBins n (diagLS s) : ℤ) := by
  unfold numBins
  rw [Finset.card_filter]
  push_cast
  refine Finset.sum_congr rfl fun i hi => ?_
  have hi := mem_range.1 hi
  rcases h.bool i hi with h0 | h0 <;> simp [diagLS, h0]

theorem CoreLS.objective {inp : BinaryInput} {s : AssignLS} (h : CoreLS inp.n s) :
    objectiveLS inp s = totalOverBins inp.n (diagLS s) (fun st e => inp.ivCP e st) := by
  classical
  unfold objectiveLS totalOverBins binsOf
  rw [Finset.sum_filter, Finset.sum_product_right]
  refine Finset.sum_congr rfl fun e he => ?_
  have he := mem_range.1 he
  rcases h.bool e he with h0 | h0
  · rw [h0, zero_mul]
    symm
    refine Finset.sum_eq_zero fun st _ => if_neg fun hb => ?_
    have := (h.end_iff he).1 hb.2.2.1
    omega
  · obtain ⟨st, hb⟩ := exists_start inp.n (diagLS s) he ((h.end_iff he).2 h0)
    rw [Finset.sum_eq_single st]
    · rw [if_pos hb, (h.at_bin inp.ivCP hb).2, h0, one_mul]
    · intro b _ hne
      exact if_neg fun hb' => hne (isBin_start_unique hb' hb)
    · intro hc
      exact absurd (mem_range.2 (lt_of_le_of_lt hb.1 he)) hc

/-! ### single inequalities -/

/-- The bins ending in `j` and `i`, where they exist. -/
theorem CoreLS.pair {n : ℕ} {s : AssignLS} (h : CoreLS n s) {i : ℕ} (hi : i < n) :
    (s.x i = 0) ∨ (s.x i = 1 ∧ ∃ st, IsBin n (diagLS s) st i) := by
  rcases h.bool i hi with h0 | h0
  · exact Or.inl h0
  · exact Or.inr ⟨h0, exists_start n _ hi ((h.end_iff hi).2 h0)⟩

theorem CoreLS.no_bin {n : ℕ} {s : AssignLS} (h : CoreLS n s) {st i : ℕ} (hx : s.x i = 0) (hb : IsBin n (diagLS s) st i) : False := by
  have := (h.end_iff hb.2.1).1 hb.2.2.1
  omega

variable {n : ℕ} {s : AssignLS} {M md : ℤ} {D : ℕ → ℕ → ℤ}

theorem ascLS_iff (h : CoreLS n s) (hM : 0 ≤ M) (hmd : 0 ≤ md) (hD : ∀ i j, 0 ≤ D i j ∧ D i j ≤ M) {j i : ℕ} (hj : j < n) (hi : i < n) :
    ascLS M md D s j i ↔ ∀ s₁ s₂, IsBin n (diagLS s) s₁ j → IsBin n (diagLS s) s₂ i → D j s₁ + md ≤ D i s₂ := by
  have bi := atLS_bound D hM hD i (s.z i)
  have bj := atLS_bound D hM hD j (s.z j)
  unfold ascLS
  rcases h.pair hi with hxi | ⟨hxi, si, bi'⟩ <;> rcases h.pair hj with hxj | ⟨hxj, sj, bj'⟩
  · simp only [hxi, hxj]
    exact ⟨fun _ s₁ s₂ _ hb => (h.no_bin hxi hb).elim, fun _ => by linarith⟩
  · simp only [hxi, hxj]
    exact ⟨fun _ s₁ s₂ _ hb => (h.no_bin hxi hb).elim, fun _ => by linarith⟩
  · simp only [hxi, hxj]
    exact ⟨fun _ s₁ s₂ hb _ => (h.no_bin hxj hb).elim, fun _ => by linarith⟩
  · rw [(h.at_bin D bi').2, (h.at_bin D bj').2, hxi, hxj]
    constructor
    · intro hq s₁ s₂ b1 b2
      rw [isBin_start_unique b1 bj', isBin_start_unique b2 bi']
      linarith
    · intro hq
      have := hq sj si bj' bi'
      linarith

theorem descLS_iff (h : CoreLS n s) (hM : 0 ≤ M) (hmd : 0 ≤ md) (hD : ∀ i j, 0 ≤ D i j ∧ D i j ≤ M) {j i : ℕ} (hj : j < n) (hi : i < n) :
    descLS M md D s j i ↔ ∀ s₁ s₂, IsBin n (diagLS s) s₁ j → IsBin n (diagLS s) s₂ i → D i s₂ + md ≤ D j s₁ := by
  have bi := atLS_bound D hM hD i (s.z i)
  have bj := atLS_bound D hM hD j (s.z j)
  unfold descLS
  rcases h.pair hi with hxi | ⟨hxi, si, bi'⟩ <;> rcases h.pair hj with hxj | ⟨hxj, sj, bj'⟩
  · simp only [hxi, hxj]
    exact ⟨fun _ s₁ s₂ _ hb => (h.no_bin hxi hb).elim, fun _ => by linarith⟩
  · simp only [hxi, hxj]
    exact ⟨fun _ s₁ s₂ _ hb => (h.no_bin hxi hb).elim, fun _ => by linarith⟩
  · simp only [hxi, hxj]
    exact ⟨fun _ s₁ s₂ hb _ => (h.no_bin hxj hb).elim, fun _ => by linarith⟩
  · rw [(h.at_bin D bi').2, (h.at_bin D bj').2, hxi, hxj]
    constructor
    · intro hq s₁ s₂ b1 b2
      rw [isBin_start_unique b1 bj', isBin_start_unique b2 bi']
      linarith
    · intro hq
      have := hq sj si bj' bi'
      linarith

/-- The inequality active when `y[i] = y[j] = v` vanish (weight 0), slack otherwise. -/
theorem sideLS_iff (h : CoreLS n s) (hM : 0 ≤ M) (hD : ∀ i j, 0 ≤ D i j ∧ D i j ≤ M) {j i : ℕ} (hj : j < n) (hi : i < n) {w : ℤ}
    (hw : w = 0 ∨ 1 ≤ w) :
    M * w + M + (atLS D j (s.z j) - M) * s.x j - s.x i * atLS D i (s.z i) ≥ 0 ↔
      (w = 0 → ∀ s₁ s₂, IsBin n (diagLS s) s₁ j → IsBin n (diagLS s) s₂ i → D i s₂ ≤ D j s₁) := by
  have bi := atLS_bound D hM hD i (s.z i)
  have bj := atLS_bound D hM hD j (s.z j)
  have hMw : 0 ≤ M * w := by
    rcases hw with rfl | hw
    · simp
    · exact mul_nonneg hM (by omega)
  rcases h.pair hi with hxi | ⟨hxi, si, bi'⟩ <;> rcases h.pair hj with hxj | ⟨hxj, sj, bj'⟩
  · simp only [hxi, hxj]
    exact ⟨fun _ _ s₁ s₂ _ hb => (h.no_bin hxi hb).elim, fun _ => by linarith⟩
  · simp only [hxi, hxj]
    exact ⟨fun _ _ s₁ s₂ _ hb => (h.no_bin hxi hb).elim, fun _ => by linarith⟩
  · simp only [hxi, hxj]
    exact ⟨fun _ _ s₁ s₂ hb _ => (h.no_bin hxj hb).elim, fun _ => by linarith⟩
  · rw [(h.at_bin D bi').2] at bi ⊢
    rw [(h.at_bin D bj').2] at bj ⊢
    rw [hxi, hxj]
    constructor
    · intro hq hw0 s₁ s₂ b1 b2
      rw [isBin_start_unique b1 bj', isBin_start_unique b2 bi']
      rw [hw0] at hq
      linarith
    · intro hq
      rcases hw with hw | hw
      · have := hq hw sj si bj' bi'
        linarith
      · have : M ≤ M * w := by nlinarith
        linarith

end OptBinning
