import Verif.Lemmas.LocalSolver
import Verif.Spec.LocalSolver
import Verif.Props.Optimal
import Verif.Lemmas.Isotonic
import Mathlib.Tactic.IntervalCases

/-!
# C112: the LocalSolver formulation (`solver="ls"`)
-/
namespace OptBinning
open Finset Spec

theorem acceptsLS.core {o : Opts} {inp : BinaryInput} {s : AssignLS} (hw : inp.Wf) (h : acceptsLS o inp s) : CoreLS inp.n s :=
  ⟨hw.pos, fun i hi => (h.1.1 i hi).1, h.2.1⟩

/-- The truncated minimum difference. -/
def md6 (inp : BinaryInput) : ℤ := ⌊inp.minDiff * 1000000⌋

theorem truncRat_md {inp : BinaryInput} (hd : 0 ≤ inp.minDiff) : truncRat (inp.minDiff * scale) = md6 inp := by
  unfold truncRat md6 scale
  push_cast
  rw [if_pos (by positivity)]

theorem md6_nonneg {inp : BinaryInput} (hd : 0 ≤ inp.minDiff) : 0 ≤ md6 inp := Int.floor_nonneg.2 (by positivity)

theorem scale_nonneg : (0 : ℤ) ≤ scale := by decide

theorem rateCP_scale (inp : BinaryInput) (i j : ℕ) : 0 ≤ inp.rateCP i j ∧ inp.rateCP i j ≤ scale := rateCP_bounds inp i j

section
variable {o : Opts} {inp : BinaryInput} {s : AssignLS}

theorem ascOn_of (hw : inp.Wf) (hc : CoreLS inp.n s) (hd : 0 ≤ inp.minDiff) {P : ℕ → Prop}
    (h : ∀ j i, j < i → i < inp.n → P j → P i → ascLS scale (md6 inp) inp.rateCP s j i) {s₁ e₁ s₂ e₂ : ℕ}
    (b1 : IsBin inp.n (diagLS s) s₁ e₁) (b2 : IsBin inp.n (diagLS s) s₂ e₂) (hlt : e₁ < e₂) (p1 : P e₁) (p2 : P e₂) :
    rate6 inp s₁ e₁ + md6 inp ≤ rate6 inp s₂ e₂ := by
  have := (ascLS_iff hc scale_nonneg (md6_nonneg hd) (rateCP_scale inp) b1.2.1 b2.2.1).1 (h e₁ e₂ hlt b2.2.1 p1 p2) s₁ s₂ b1 b2
  rwa [rateCP_eq_rate6 inp hw b1.2.1 b1.1, rateCP_eq_rate6 inp hw b2.2.1 b2.1] at this

theorem descOn_of (hw : inp.Wf) (hc : CoreLS inp.n s) (hd : 0 ≤ inp.minDiff) {P : ℕ → Prop}
    (h : ∀ j i, j < i → i < inp.n → P j → P i → descLS scale (md6 inp) inp.rateCP s j i) {s₁ e₁ s₂ e₂ : ℕ}
    (b1 : IsBin inp.n (diagLS s) s₁ e₁) (b2 : IsBin inp.n (diagLS s) s₂ e₂) (hlt : e₁ < e₂) (p1 : P e₁) (p2 : P e₂) :
    rate6 inp s₂ e₂ + md6 inp ≤ rate6 inp s₁ e₁ := by
  have := (descLS_iff hc scale_nonneg (md6_nonneg hd) (rateCP_scale inp) b1.2.1 b2.2.1).1 (h e₁ e₂ hlt b2.2.1 p1 p2) s₁ s₂ b1 b2
  rwa [rateCP_eq_rate6 inp hw b1.2.1 b1.1, rateCP_eq_rate6 inp hw b2.2.1 b2.1] at this

/-- The trend constraints of an accepted assignment. -/
theorem trendLS_sound (hw : inp.Wf) (hc : CoreLS inp.n s) (hd : 0 ≤ inp.minDiff)
    (hy : (o.trend = .peak ∨ o.trend = .valley) → (∀ i < inp.n, s.y i = 0 ∨ s.y i = 1) ∧ 0 ≤ s.t ∧ s.t ≤ inp.n)
    (h : trendLS o scale (md6 inp) (decide (inp.minDiff = 0)) inp.n inp.rateCP s) :
    TrendHolds inp.n (diagLS s) (rate6 inp) o.trend ∧
    ∀ s₁ e₁ s₂ e₂, IsBin inp.n (diagLS s) s₁ e₁ → IsBin inp.n (diagLS s) s₂ e₂ → e₁ < e₂ → SameSide o.trend e₁ e₂ →
      md6 inp ≤ |rate6 inp s₁ e₁ - rate6 inp s₂ e₂| := by
  have hm := md6_nonneg hd
  have at3 : ∀ {s₁ e₁ : ℕ}, IsBin inp.n (diagLS s) s₁ e₁ → s.x e₁ = 1 ∧ atLS inp.rateCP e₁ (s.z e₁) = rate6 inp s₁ e₁ := fun b => by
    have := hc.at_bin inp.rateCP b
    rwa [rateCP_eq_rate6 inp hw b.2.1 b.1] at this
  unfold trendLS at h
  cases ht : o.trend with
  | unconstrained => exact ⟨trivial, fun _ _ _ _ _ _ _ hc => hc.elim⟩
  | ascending =>
    rw [ht] at h
    have key := @ascOn_of inp s hw hc hd (fun _ => True) fun j i hj hi _ _ => h.1 i (by omega) hi j hj
    refine ⟨fun s₁ e₁ s₂ e₂ b1 b2 hlt p1 p2 => ?_, fun s₁ e₁ s₂ e₂ b1 b2 hlt _ => ?_⟩
    · have := key b1 b2 hlt trivial trivial
      omega
    · have := key b1 b2 hlt trivial trivial
      rw [abs_sub_comm]
      exact le_trans (by omega) (le_abs_self _)
  | descending =>
    rw [ht] at h
    have key := @descOn_of inp s hw hc hd (fun _ => True) fun j i hj hi _ _ => h.1 i (by omega) hi j hj
    refine ⟨fun s₁ e₁ s₂ e₂ b1 b2 hlt p1 p2 => ?_, fun s₁ e₁ s₂ e₂ b1 b2 hlt _ => ?_⟩
    · have := key b1 b2 hlt trivial trivial
      omega
    · have := key b1 b2 hlt trivial trivial
      exact le_trans (by omega) (le_abs_self _)
  | concave =>
    rw [ht] at h
    refine ⟨fun s₁ e₁ s₂ e₂ s₃ e₃ b1 b2 b3 h12 h23 => ?_, fun _ _ _ _ _ _ _ hc => hc.elim⟩
    have := h e₃ (by omega) b3.2.1 e₂ (by omega) h23 e₁ h12
    rw [(at3 b1).1, (at3 b1).2, (at3 b2).1, (at3 b2).2, (at3 b3).1, (at3 b3).2] at this
    linarith
  | convex =>
    rw [ht] at h
    refine ⟨fun s₁ e₁ s₂ e₂ s₃ e₃ b1 b2 b3 h12 h23 => ?_, fun _ _ _ _ _ _ _ hc => hc.elim⟩
    have := h e₃ (by omega) b3.2.1 e₂ (by omega) h23 e₁ h12
    rw [(at3 b1).1, (at3 b1).2, (at3 b2).1, (at3 b2).2, (at3 b3).1, (at3 b3).2] at this
    linarith
  | peak =>
    rw [ht] at h
    obtain ⟨y1, y2, y3⟩ := hy (Or.inl ht)
    obtain ⟨c, hcc⟩ := change_cases y1 y2 y3 h.1
    refine ⟨⟨c, fun s₁ e₁ s₂ e₂ b1 b2 hlt p1 p2 => ?_, fun s₁ e₁ s₂ e₂ b1 b2 hlt p1 p2 => ?_⟩, fun _ _ _ _ _ _ _ hc => hc.elim⟩
    · have := (h.2 e₂ (by omega) b2.2.1 e₁ hlt).2
      rw [(at3 b1).1, (at3 b1).2, (at3 b2).1, (at3 b2).2, (hcc e₁ b1.2.1).1 p1, (hcc e₂ b2.2.1).1 p2] at this
      linarith
    · have := (h.2 e₂ (by omega) b2.2.1 e₁ hlt).1
      rw [(at3 b1).1, (at3 b1).2, (at3 b2).1, (at3 b2).2, (hcc e₁ b1.2.1).2 p1, (hcc e₂ b2.2.1).2 p2] at this
      linarith
  | valley =>
    rw [ht] at h
    obtain ⟨y1, y2, y3⟩ := hy (Or.inr ht)
    obtain ⟨c, hcc⟩ := change_cases y1 y2 y3 h.1
    refine ⟨⟨c, fun s₁ e₁ s₂ e₂ b1 b2 hlt p1 p2 => ?_, fun s₁ e₁ s₂ e₂ b1 b2 hlt p1 p2 => ?_⟩, fun _ _ _ _ _ _ _ hc => hc.elim⟩
    · have := (h.2 e₂ (by omega) b2.2.1 e₁ hlt).2
      rw [(at3 b1).1, (at3 b1).2, (at3 b2).1, (at3 b2).2, (hcc e₁ b1.2.1).1 p1, (hcc e₂ b2.2.1).1 p2] at this
      linarith
    · have := (h.2 e₂ (by omega) b2.2.1 e₁ hlt).1
      rw [(at3 b1).1, (at3 b1).2, (at3 b2).1, (at3 b2).2, (hcc e₁ b1.2.1).2 p1, (hcc e₂ b2.2.1).2 p2] at this
      linarith
  | peakHeuristic c =>
    rw [ht] at h
    have k1 := @ascOn_of inp s hw hc hd (fun e => e < c) fun j i hj hi _ p => h.1 i (by omega) p j hj
    have k2 := @descOn_of inp s hw hc hd (fun e => c ≤ e) fun j i hj hi p p' => h.2.2.1 i p' hi j p hj
    refine ⟨⟨fun s₁ e₁ s₂ e₂ b1 b2 hlt p1 p2 => ?_, fun s₁ e₁ s₂ e₂ b1 b2 hlt p1 p2 => ?_⟩, fun s₁ e₁ s₂ e₂ b1 b2 hlt hss => ?_⟩
    · have := k1 b1 b2 hlt p1 p2; omega
    · have := k2 b1 b2 hlt p1 p2; omega
    · rcases Nat.lt_or_ge e₁ c with p1 | p1
      · have := k1 b1 b2 hlt p1 (hss.1 p1)
        rw [abs_sub_comm]
        exact le_trans (by omega) (le_abs_self _)
      · have := k2 b1 b2 hlt p1 (le_trans p1 hlt.le)
        exact le_trans (by omega) (le_abs_self _)
  | valleyHeuristic c =>
    rw [ht] at h
    have k1 := @descOn_of inp s hw hc hd (fun e => e < c) fun j i hj hi _ p => h.1 i (by omega) p j hj
    have k2 := @ascOn_of inp s hw hc hd (fun e => c ≤ e) fun j i hj hi p p' => h.2.2.1 i p' hi j p hj
    refine ⟨⟨fun s₁ e₁ s₂ e₂ b1 b2 hlt p1 p2 => ?_, fun s₁ e₁ s₂ e₂ b1 b2 hlt p1 p2 => ?_⟩, fun s₁ e₁ s₂ e₂ b1 b2 hlt hss => ?_⟩
    · have := k1 b1 b2 hlt p1 p2; omega
    · have := k2 b1 b2 hlt p1 p2; omega
    · rcases Nat.lt_or_ge e₁ c with p1 | p1
      · have := k1 b1 b2 hlt p1 (hss.1 p1)
        exact le_trans (by omega) (le_abs_self _)
      · have := k2 b1 b2 hlt p1 (le_trans p1 hlt.le)
        rw [abs_sub_comm]
        exact le_trans (by omega) (le_abs_self _)

/-! ### limits -/

theorem table_bin (hw : inp.Wf) (hc : CoreLS inp.n s) {st e : ℕ} (hb : IsBin inp.n (diagLS s) st e) :
    s.x e = 1 ∧ atLS inp.tableNE e (s.z e) = binTotal inp.ne st e ∧ atLS inp.tableE e (s.z e) = binTotal inp.ev st e :=
  ⟨(hc.at_bin inp.tableNE hb).1, by rw [(hc.at_bin inp.tableNE hb).2]; exact cumAt_nonevent inp hb.2.1 hb.1,
    by rw [(hc.at_bin inp.tableE hb).2]; exact cumAt_event inp hw hb.2.1 hb.1⟩

theorem countLS_iff (hc : CoreLS inp.n s) (C : ℕ → ℕ → ℤ) (mn mx : Option ℤ) :
    minMaxCountLS mn mx inp.n C s ↔ ∀ st e, IsBin inp.n (diagLS s) st e → AtLeast mn (C e st) ∧ AtMost mx (C e st) := by
  constructor
  · intro h st e hb
    obtain ⟨h1, h2⟩ := hc.at_bin C hb
    refine ⟨fun b hbd => ?_, fun b hbd => ?_⟩
    · have := (h e hb.2.1).1 b hbd
      rw [h1, h2] at this
      linarith
    · have := (h e hb.2.1).2 b hbd
      rw [h1, h2] at this
      linarith
  · intro h i hi
    rcases hc.pair hi with hx | ⟨hx, st, hb⟩
    · rw [hx]; exact ⟨fun b _ => by simp, fun b _ => by simp⟩
    · obtain ⟨h1, h2⟩ := hc.at_bin C hb
      obtain ⟨g1, g2⟩ := h st i hb
      rw [h1, h2]
      exact ⟨fun b hbd => by have := g1 b hbd; linarith, fun b hbd => by have := g2 b hbd; linarith⟩

theorem acceptsLS.admissible (hw : inp.Wf) (hd : 0 ≤ inp.minDiff) (h : acceptsLS o inp s) :
    Admissible o inp.n (diagLS s) inp.ne inp.ev (rate6 inp) := by
  have hc := h.core hw
  obtain ⟨hdom, hsp, htr, hbins, hsize, hne, hev, hfix⟩ := h
  rw [truncRat_md hd] at htr
  have hN : ∀ st e, IsBin inp.n (diagLS s) st e → inp.tableNE e st = binTotal inp.ne st e := fun st e hb => cumAt_nonevent inp hb.2.1 hb.1
  have hE : ∀ st e, IsBin inp.n (diagLS s) st e → inp.tableE e st = binTotal inp.ev st e := fun st e hb => cumAt_event inp hw hb.2.1 hb.1
  have c1 := (countLS_iff hc _ _ _).1 hne
  have c2 := (countLS_iff hc _ _ _).1 hev
  have hnb : AtLeast o.minBins (numBins inp.n (diagLS s)) ∧ AtMost o.maxBins (numBins inp.n (diagLS s)) := by
    unfold minMaxBinsLS at hbins
    have h2 := hdom.2.2.1
    rw [hc.total] at hbins
    cases h3 : o.minBins <;> cases h4 : o.maxBins <;> simp only [h3, h4] at hbins h2
    · exact ⟨fun b hb => (by cases hb), fun b hb => (by cases hb)⟩
    · exact ⟨fun b hb => (by cases hb), fun b hb => by cases hb; exact hbins⟩
    · exact ⟨fun b hb => by cases hb; exact hbins, fun b hb => (by cases hb)⟩
    · have := h2 _ _ rfl rfl
      exact ⟨fun b hb => by cases hb; omega, fun b hb => by cases hb; omega⟩
  have hsz : ∀ st e, IsBin inp.n (diagLS s) st e → AtLeast o.minSize (binTotal inp.ne st e + binTotal inp.ev st e) ∧
      AtMost o.maxSize (binTotal inp.ne st e + binTotal inp.ev st e) := fun st e hb => by
    have q := hsize e hb.2.1
    obtain ⟨t1, t2, t3⟩ := table_bin hw hc hb
    have h2 := hdom.2.2.2
    cases h3 : o.minSize <;> cases h4 : o.maxSize <;> simp only [h3, h4] at q h2
    · exact ⟨fun b hb => (by cases hb), fun b hb => (by cases hb)⟩
    · rw [t1, t2, t3] at q
      exact ⟨fun b hb => (by cases hb), fun b hb => by cases hb; linarith⟩
    · rw [t1, t2, t3] at q
      exact ⟨fun b hb => by cases hb; linarith, fun b hb => (by cases hb)⟩
    · rw [t1, t2, t3] at q
      have := h2 _ _ rfl rfl e hb.2.1
      exact ⟨fun b hb => by cases hb; linarith, fun b hb => by cases hb; linarith⟩
  refine ⟨hc.isBinning, hnb.1, hnb.2, fun st e hb => (hsz st e hb).1, fun st e hb => (hsz st e hb).2, fun st e hb => ?_, fun st e hb => ?_,
    fun st e hb => ?_, fun st e hb => ?_, (trendLS_sound hw hc hd hdom.2.1 htr).1, fun f hf i hi hfi => ?_⟩
  · rw [← hN st e hb]; exact (c1 st e hb).1
  · rw [← hN st e hb]; exact (c1 st e hb).2
  · rw [← hE st e hb]; exact (c2 st e hb).1
  · rw [← hE st e hb]; exact (c2 st e hb).2
  · exact (hc.end_iff (by omega)).2 (hfix f hf i hi hfi)

/-- Pairs of bins too close for `min_event_rate_diff` with `solver="ls"`. -/
def tooCloseLS (o : Opts) (inp : BinaryInput) (st e st' e' : ℕ) : Prop := SameSide o.trend e e' ∧ tooClose6 inp st e st' e'

theorem acceptsLS.separated (hw : inp.Wf) (hd : 0 ≤ inp.minDiff) (h : acceptsLS o inp s) :
    Separated .all inp.n (diagLS s) (tooCloseLS o inp) := by
  have hc := h.core hw
  obtain ⟨hdom, hsp, htr, -⟩ := h
  rw [truncRat_md hd] at htr
  rintro st e st' e' b1 b2 hlt - ⟨hss, -, hclose⟩
  have := (trendLS_sound hw hc hd hdom.2.1 htr).2 st e st' e' b1 b2 (lt_of_lt_of_le hlt b2.1) hss
  unfold md6 at this
  omega

theorem acceptsLS.runs (hw : inp.Wf) (hd : inp.minDiff = 0) (h : acceptsLS o inp s)
    (htc : ∀ tc, o.trend = .peakHeuristic tc ∨ o.trend = .valleyHeuristic tc → tc ≤ inp.n) :
    KeepsRuns inp.n (diagLS s) (rate6 inp) o.trend := by
  have hc := h.core hw
  obtain ⟨hdom, hsp, htr, -⟩ := h
  have hz : decide (inp.minDiff = 0) = true := by simpa using hd
  rw [hz] at htr
  have up : ∀ {i : ℕ}, i + 1 < inp.n → (inp.rateCP (i + 1) i - inp.rateCP (i + 1) (i + 1) > 0 → s.x i = 0) →
      rate6 inp (i + 1) (i + 1) < rate6 inp i (i + 1) → diagLS s i = false := fun {i} hi hcut hlt => by
    rw [rateCP_eq_rate6 inp hw hi (by omega), rateCP_eq_rate6 inp hw hi le_rfl] at hcut
    exact (hc.not_end_iff (by omega)).2 (hcut (by omega))
  have dn : ∀ {i : ℕ}, i + 1 < inp.n → (inp.rateCP (i + 1) i - inp.rateCP (i + 1) (i + 1) < 0 → s.x i = 0) →
      rate6 inp i (i + 1) < rate6 inp (i + 1) (i + 1) → diagLS s i = false := fun {i} hi hcut hlt => by
    rw [rateCP_eq_rate6 inp hw hi (by omega), rateCP_eq_rate6 inp hw hi le_rfl] at hcut
    exact (hc.not_end_iff (by omega)).2 (hcut (by omega))
  unfold trendLS at htr
  cases ht : o.trend with
  | ascending =>
    rw [ht] at htr
    exact fun i hi => up hi (htr.2 rfl i (by omega) hi)
  | descending =>
    rw [ht] at htr
    exact fun i hi => dn hi (htr.2 rfl i (by omega) hi)
  | peakHeuristic c =>
    rw [ht] at htr
    have hcn := htc c (Or.inl ht)
    exact ⟨fun i hi => up (by omega) (htr.2.1 rfl i (by omega) hi), fun i hi hi' => dn hi' (htr.2.2.2 rfl i hi hi')⟩
  | valleyHeuristic c =>
    rw [ht] at htr
    have hcn := htc c (Or.inr ht)
    exact ⟨fun i hi => dn (by omega) (htr.2.1 rfl i (by omega) hi), fun i hi hi' => up hi' (htr.2.2.2 rfl i hi hi')⟩
  | _ => trivial

/-! ### completeness -/

/-- The values of `a`. -/
def runLength (sol : ℕ → Bool) : ℕ → ℕ
  | 0 => if sol 0 then 0 else 1
  | i + 1 => if sol (i + 1) then 0 else runLength sol i + 1

theorem runLength_le (sol : ℕ → Bool) (i : ℕ) : runLength sol i ≤ i + 1 := by
  induction i with
  | zero => unfold runLength; split_ifs <;> omega
  | succ i ih => unfold runLength; split_ifs <;> omega

theorem runLength_end {sol : ℕ → Bool} {i : ℕ} (h : sol i = true) : runLength sol i = 0 := by
  cases i <;> simp [runLength, h]

/-- 0/1. -/
def bit (b : Bool) : ℤ := if b then 1 else 0

/-- The assignment for a binning without the auxiliary variables. -/
def encodeLS (n : ℕ) (sol : ℕ → Bool) : AssignLS where
  x := fun i => bit (sol i)
  a := fun i => (runLength sol i : ℤ)
  z := fun i => (runLength sol (pyPrev n i) : ℤ) * bit (sol i) * (1 - bit (sol (pyPrev n i)))

theorem encodeLS_diag (n : ℕ) (sol : ℕ → Bool) : diagLS (encodeLS n sol) = sol := by
  funext i
  show (bit (sol i) != 0) = sol i
  cases sol i <;> rfl

theorem encodeLS_core {n : ℕ} {sol : ℕ → Bool} (hb : IsBinning n sol) : CoreLS n (encodeLS n sol) := by
  refine ⟨hb.1, fun i _ => ?_, ?_, fun i hi => ⟨?_, rfl⟩⟩
  · show bit (sol i) = 0 ∨ bit (sol i) = 1
    cases sol i
    · exact Or.inl rfl
    · exact Or.inr rfl
  · show bit (sol (n - 1)) = 1
    rw [hb.2]; rfl
  · show (runLength sol i : ℤ) = ((runLength sol (pyPrev n i) : ℤ) + 1) * (1 - bit (sol i))
    cases i with
    | zero =>
      have : runLength sol (pyPrev n 0) = 0 := runLength_end hb.2
      rw [this]
      cases h : sol 0 <;> simp [runLength, h, bit]
    | succ i =>
      have : pyPrev n (i + 1) = i := by simp [pyPrev]
      rw [this]
      cases h : sol (i + 1) <;> simp [runLength, h, bit]

theorem encodeLS_domain {n : ℕ} {sol : ℕ → Bool} {i : ℕ} (hi : i < n) :
    ((encodeLS n sol).x i = 0 ∨ (encodeLS n sol).x i = 1) ∧ (0 ≤ (encodeLS n sol).a i ∧ (encodeLS n sol).a i ≤ n) ∧
      (0 ≤ (encodeLS n sol).z i ∧ (encodeLS n sol).z i ≤ n) := by
  have hp : pyPrev n i < n := by unfold pyPrev; split_ifs <;> omega
  have h1 := runLength_le sol i
  have h2 := runLength_le sol (pyPrev n i)
  refine ⟨?_, ⟨?_, ?_⟩, ?_, ?_⟩
  · show bit (sol i) = 0 ∨ bit (sol i) = 1
    cases sol i
    · exact Or.inl rfl
    · exact Or.inr rfl
  · exact Int.natCast_nonneg _
  · show (runLength sol i : ℤ) ≤ n
    omega
  · show 0 ≤ (runLength sol (pyPrev n i) : ℤ) * bit (sol i) * (1 - bit (sol (pyPrev n i)))
    cases sol i <;> cases sol (pyPrev n i) <;> simp [bit]
  · show (runLength sol (pyPrev n i) : ℤ) * bit (sol i) * (1 - bit (sol (pyPrev n i))) ≤ n
    cases sol i <;> cases sol (pyPrev n i) <;> simp [bit]
    omega


/-- The bin after a bin. -/
theorem next_bin {n : ℕ} {sol : ℕ → Bool} (hB : IsBinning n sol) {s₁ e₁ s₂ e₂ : ℕ} (b1 : IsBin n sol s₁ e₁) (b2 : IsBin n sol s₂ e₂)
    (h : e₁ < e₂) : ∃ e₃, IsBin n sol (e₁ + 1) e₃ ∧ e₃ ≤ e₂ := by
  obtain ⟨s₃, e₃, b3, g1, g2⟩ := Iso.exists_bin hB (show e₁ + 1 < n by have := b2.2.1; omega)
  have h3 : s₃ = e₁ + 1 := by
    by_contra hne
    have := (Iso.bin_unique b1 b3 b1.1 le_rfl (by omega) (by omega)).2
    omega
  subst h3
  refine ⟨e₃, b3, ?_⟩
  by_contra hlt
  have := (Iso.bin_unique b2 b3 b2.1 le_rfl (by omega) (by omega)).2
  omega

theorem asc_gap {sol : ℕ → Bool} (hd : 0 ≤ inp.minDiff) (hB : IsBinning inp.n sol) {P : ℕ → Prop}
    (hP : ∀ a b c, P a → P c → a ≤ b → b ≤ c → P b)
    (hsame : ∀ e e', P e → P e' → SameSide o.trend e e')
    (ht : AscendingOn inp.n sol (rate6 inp) P) (hs : Separated .consecutive inp.n sol (tooCloseLS o inp)) {s₁ e₁ s₂ e₂ : ℕ}
    (b1 : IsBin inp.n sol s₁ e₁) (b2 : IsBin inp.n sol s₂ e₂) (hlt : e₁ < e₂) (p1 : P e₁) (p2 : P e₂) :
    rate6 inp s₁ e₁ + md6 inp ≤ rate6 inp s₂ e₂ := by
  rcases hd.eq_or_lt with h0 | h0
  · have : md6 inp = 0 := by unfold md6; rw [← h0]; simp
    rw [this, add_zero]
    exact ht s₁ e₁ s₂ e₂ b1 b2 hlt p1 p2
  · obtain ⟨e₃, b3, g⟩ := next_bin hB b1 b2 hlt
    have l3 := b3.1
    have p3 := hP e₁ e₃ e₂ p1 p2 (by omega) g
    have t1 := ht _ _ _ _ b1 b3 (by omega) p1 p3
    have t2 : rate6 inp (e₁ + 1) e₃ ≤ rate6 inp s₂ e₂ := by
      rcases g.eq_or_lt with rfl | g
      · rw [isBin_start_unique b3 b2]
      · exact ht _ _ _ _ b3 b2 g p3 p2
    have t3 := hs _ _ _ _ b1 b3 (by omega) (fun _ => rfl)
    have t4 : md6 inp ≤ |rate6 inp s₁ e₁ - rate6 inp (e₁ + 1) e₃| := by
      by_contra hc
      exact t3 ⟨hsame _ _ p1 p3, h0, lt_of_not_ge hc⟩
    rw [abs_sub_comm, abs_of_nonneg (by omega)] at t4
    omega

theorem desc_gap {sol : ℕ → Bool} (hd : 0 ≤ inp.minDiff) (hB : IsBinning inp.n sol) {P : ℕ → Prop}
    (hP : ∀ a b c, P a → P c → a ≤ b → b ≤ c → P b)
    (hsame : ∀ e e', P e → P e' → SameSide o.trend e e')
    (ht : DescendingOn inp.n sol (rate6 inp) P) (hs : Separated .consecutive inp.n sol (tooCloseLS o inp)) {s₁ e₁ s₂ e₂ : ℕ}
    (b1 : IsBin inp.n sol s₁ e₁) (b2 : IsBin inp.n sol s₂ e₂) (hlt : e₁ < e₂) (p1 : P e₁) (p2 : P e₂) :
    rate6 inp s₂ e₂ + md6 inp ≤ rate6 inp s₁ e₁ := by
  rcases hd.eq_or_lt with h0 | h0
  · have : md6 inp = 0 := by unfold md6; rw [← h0]; simp
    rw [this, add_zero]
    exact ht s₁ e₁ s₂ e₂ b1 b2 hlt p1 p2
  · obtain ⟨e₃, b3, g⟩ := next_bin hB b1 b2 hlt
    have l3 := b3.1
    have p3 := hP e₁ e₃ e₂ p1 p2 (by omega) g
    have t1 := ht _ _ _ _ b1 b3 (by omega) p1 p3
    have t2 : rate6 inp s₂ e₂ ≤ rate6 inp (e₁ + 1) e₃ := by
      rcases g.eq_or_lt with rfl | g
      · rw [isBin_start_unique b3 b2]
      · exact ht _ _ _ _ b3 b2 g p3 p2
    have t3 := hs _ _ _ _ b1 b3 (by omega) (fun _ => rfl)
    have t4 : md6 inp ≤ |rate6 inp s₁ e₁ - rate6 inp (e₁ + 1) e₃| := by
      by_contra hc
      exact t3 ⟨hsame _ _ p1 p3, h0, lt_of_not_ge hc⟩
    rw [abs_of_nonneg (by omega)] at t4
    omega

/-- The assignment for a binning; `c` is the change point. -/
def witLS (o : Opts) (inp : BinaryInput) (sol : ℕ → Bool) (c : ℕ) : AssignLS :=
  { encodeLS inp.n sol with
    y := yWit c
    t := c
    d := o.maxBins.getD 0 - numBins inp.n sol
    u := fun i => o.maxSize.getD 0 * (encodeLS inp.n sol).x i -
      (encodeLS inp.n sol).x i * (atLS inp.tableNE i ((encodeLS inp.n sol).z i) + atLS inp.tableE i ((encodeLS inp.n sol).z i)) }

/-- The change point used by the trend. -/
theorem trendLS_complete {sol : ℕ → Bool} (hw : inp.Wf) (hd : 0 ≤ inp.minDiff) (hB : IsBinning inp.n sol) (hex : ExactTrend o.trend)
    (htc : ∀ tc, o.trend = .peakHeuristic tc ∨ o.trend = .valleyHeuristic tc → tc ≤ inp.n)
    (ht : TrendHolds inp.n sol (rate6 inp) o.trend) (hs : Separated .consecutive inp.n sol (tooCloseLS o inp))
    (hr : inp.minDiff = 0 → KeepsRuns inp.n sol (rate6 inp) o.trend) :
    ∃ c ≤ inp.n, trendLS o scale (md6 inp) (decide (inp.minDiff = 0)) inp.n inp.rateCP (witLS o inp sol c) := by
  have hcore : ∀ c, CoreLS inp.n (witLS o inp sol c) := fun c => by
    have := encodeLS_core hB
    exact ⟨this.pos, this.bool, this.space⟩
  have hdiag : ∀ c, diagLS (witLS o inp sol c) = sol := fun c => encodeLS_diag inp.n sol
  have hm := md6_nonneg hd
  have asc : ∀ c j i, j < i → i < inp.n → (∀ s₁ s₂, IsBin inp.n sol s₁ j → IsBin inp.n sol s₂ i → rate6 inp s₁ j + md6 inp ≤ rate6 inp s₂ i) →
      ascLS scale (md6 inp) inp.rateCP (witLS o inp sol c) j i := fun c j i hj hi h => by
    refine (ascLS_iff (hcore c) scale_nonneg hm (rateCP_scale inp) (by omega) hi).2 ?_
    rw [hdiag]
    intro s₁ s₂ b1 b2
    rw [rateCP_eq_rate6 inp hw b1.2.1 b1.1, rateCP_eq_rate6 inp hw b2.2.1 b2.1]
    exact h s₁ s₂ b1 b2
  have desc : ∀ c j i, j < i → i < inp.n → (∀ s₁ s₂, IsBin inp.n sol s₁ j → IsBin inp.n sol s₂ i → rate6 inp s₂ i + md6 inp ≤ rate6 inp s₁ j) →
      descLS scale (md6 inp) inp.rateCP (witLS o inp sol c) j i := fun c j i hj hi h => by
    refine (descLS_iff (hcore c) scale_nonneg hm (rateCP_scale inp) (by omega) hi).2 ?_
    rw [hdiag]
    intro s₁ s₂ b1 b2
    rw [rateCP_eq_rate6 inp hw b1.2.1 b1.1, rateCP_eq_rate6 inp hw b2.2.1 b2.1]
    exact h s₁ s₂ b1 b2
  have up : ∀ c {i : ℕ}, i + 1 < inp.n → (rate6 inp (i + 1) (i + 1) < rate6 inp i (i + 1) → sol i = false) →
      inp.rateCP (i + 1) i - inp.rateCP (i + 1) (i + 1) > 0 → (witLS o inp sol c).x i = 0 := fun c {i} hi hcut hlt => by
    rw [rateCP_eq_rate6 inp hw hi (by omega), rateCP_eq_rate6 inp hw hi le_rfl] at hlt
    exact ((hcore c).not_end_iff (by omega)).1 (by rw [hdiag]; exact hcut (by omega))
  have dn : ∀ c {i : ℕ}, i + 1 < inp.n → (rate6 inp i (i + 1) < rate6 inp (i + 1) (i + 1) → sol i = false) →
      inp.rateCP (i + 1) i - inp.rateCP (i + 1) (i + 1) < 0 → (witLS o inp sol c).x i = 0 := fun c {i} hi hcut hlt => by
    rw [rateCP_eq_rate6 inp hw hi (by omega), rateCP_eq_rate6 inp hw hi le_rfl] at hlt
    exact ((hcore c).not_end_iff (by omega)).1 (by rw [hdiag]; exact hcut (by omega))
  have side : ∀ c {j i : ℕ} {w : ℤ}, j < inp.n → i < inp.n → (w = 0 ∨ 1 ≤ w) →
      (w = 0 → ∀ s₁ s₂, IsBin inp.n sol s₁ j → IsBin inp.n sol s₂ i → rate6 inp s₂ i ≤ rate6 inp s₁ j) →
      scale * w + scale + (atLS inp.rateCP j ((witLS o inp sol c).z j) - scale) * (witLS o inp sol c).x j -
        (witLS o inp sol c).x i * atLS inp.rateCP i ((witLS o inp sol c).z i) ≥ 0 := fun c {j i w} hj hi hww h => by
    refine (sideLS_iff (hcore c) scale_nonneg (rateCP_scale inp) hj hi hww).2 ?_
    rw [hdiag]
    intro h0 s₁ s₂ b1 b2
    rw [rateCP_eq_rate6 inp hw b1.2.1 b1.1, rateCP_eq_rate6 inp hw b2.2.1 b2.1]
    exact h h0 s₁ s₂ b1 b2
  have yy : ∀ c i : ℕ, yWit c i = 1 ∧ i < c ∨ yWit c i = 0 ∧ c ≤ i := fun c i => by
    unfold yWit
    split_ifs with hh
    · exact Or.inl ⟨rfl, hh⟩
    · exact Or.inr ⟨rfl, by omega⟩
  unfold trendLS
  cases htr : o.trend with
  | unconstrained => exact ⟨0, by omega, trivial⟩
  | concave => rw [htr] at hex; exact hex.elim
  | convex => rw [htr] at hex; exact hex.elim
  | ascending =>
    rw [htr] at ht hr
    have key := fun {s₁ e₁ s₂ e₂ : ℕ} => @asc_gap o inp sol hd hB (fun _ => True) (fun _ _ _ _ _ _ _ => trivial)
      (fun _ _ _ _ => by rw [htr]; trivial) ht hs s₁ e₁ s₂ e₂
    refine ⟨0, by omega, fun i hi hin j hj => asc 0 j i hj hin fun s₁ s₂ b1 b2 => key b1 b2 hj trivial trivial, fun hz i _ hi => ?_⟩
    exact up 0 hi (hr (by simpa using hz) i hi)
  | descending =>
    rw [htr] at ht hr
    have key := fun {s₁ e₁ s₂ e₂ : ℕ} => @desc_gap o inp sol hd hB (fun _ => True) (fun _ _ _ _ _ _ _ => trivial)
      (fun _ _ _ _ => by rw [htr]; trivial) ht hs s₁ e₁ s₂ e₂
    refine ⟨0, by omega, fun i hi hin j hj => desc 0 j i hj hin fun s₁ s₂ b1 b2 => key b1 b2 hj trivial trivial, fun hz i _ hi => ?_⟩
    exact dn 0 hi (hr (by simpa using hz) i hi)
  | peak =>
    rw [htr] at ht
    obtain ⟨c, h1, h2⟩ := ht
    refine ⟨min c inp.n, min_le_right _ _, changePoint_wit (min_le_right _ _), fun i hi hin j hj => ⟨?_, ?_⟩⟩
    · show scale * (yWit (min c inp.n) i + yWit (min c inp.n) j) + scale + _ - _ ≥ 0
      refine side _ (by omega) hin ?_ fun h0 s₁ s₂ b1 b2 => h2 _ _ _ _ b1 b2 hj ?_ ?_ <;>
        rcases yy (min c inp.n) i with ⟨q, q'⟩ | ⟨q, q'⟩ <;> rcases yy (min c inp.n) j with ⟨p, p'⟩ | ⟨p, p'⟩ <;> omega
    · show scale * (2 - yWit (min c inp.n) i - yWit (min c inp.n) j) + scale + _ - _ ≥ 0
      refine side _ hin (by omega) ?_ fun h0 s₁ s₂ b1 b2 => h1 _ _ _ _ b2 b1 hj ?_ ?_ <;>
        rcases yy (min c inp.n) i with ⟨q, q'⟩ | ⟨q, q'⟩ <;> rcases yy (min c inp.n) j with ⟨p, p'⟩ | ⟨p, p'⟩ <;> omega
  | valley =>
    rw [htr] at ht
    obtain ⟨c, h1, h2⟩ := ht
    refine ⟨min c inp.n, min_le_right _ _, changePoint_wit (min_le_right _ _), fun i hi hin j hj => ⟨?_, ?_⟩⟩
    · show scale * (yWit (min c inp.n) i + yWit (min c inp.n) j) + scale + _ - _ ≥ 0
      refine side _ hin (by omega) ?_ fun h0 s₁ s₂ b1 b2 => h2 _ _ _ _ b2 b1 hj ?_ ?_ <;>
        rcases yy (min c inp.n) i with ⟨q, q'⟩ | ⟨q, q'⟩ <;> rcases yy (min c inp.n) j with ⟨p, p'⟩ | ⟨p, p'⟩ <;> omega
    · show scale * (2 - yWit (min c inp.n) i - yWit (min c inp.n) j) + scale + _ - _ ≥ 0
      refine side _ (by omega) hin ?_ fun h0 s₁ s₂ b1 b2 => h1 _ _ _ _ b1 b2 hj ?_ ?_ <;>
        rcases yy (min c inp.n) i with ⟨q, q'⟩ | ⟨q, q'⟩ <;> rcases yy (min c inp.n) j with ⟨p, p'⟩ | ⟨p, p'⟩ <;> omega
  | peakHeuristic c =>
    have hcn := htc c (Or.inl htr)
    rw [htr] at ht hr
    have k1 := fun {s₁ e₁ s₂ e₂ : ℕ} => @asc_gap o inp sol hd hB (fun e => e < c) (fun _ _ _ _ _ _ _ => by omega)
      (fun _ _ _ _ => by rw [htr]; show _ ↔ _; omega) ht.1 hs s₁ e₁ s₂ e₂
    have k2 := fun {s₁ e₁ s₂ e₂ : ℕ} => @desc_gap o inp sol hd hB (fun e => c ≤ e) (fun _ _ _ _ _ _ _ => by omega)
      (fun _ _ _ _ => by rw [htr]; show _ ↔ _; omega) ht.2 hs s₁ e₁ s₂ e₂
    refine ⟨0, by omega, fun i hi hin j hj => asc 0 j i hj (by omega) fun s₁ s₂ b1 b2 => k1 b1 b2 hj (by omega) hin, fun hz i _ hi => ?_,
      fun i hi hin j hjc hj => desc 0 j i hj hin fun s₁ s₂ b1 b2 => k2 b1 b2 hj hjc hi, fun hz i hi hin => ?_⟩
    · exact up 0 (by omega) ((hr (by simpa using hz)).1 i hi)
    · exact dn 0 hin ((hr (by simpa using hz)).2 i hi hin)
  | valleyHeuristic c =>
    have hcn := htc c (Or.inr htr)
    rw [htr] at ht hr
    have k1 := fun {s₁ e₁ s₂ e₂ : ℕ} => @desc_gap o inp sol hd hB (fun e => e < c) (fun _ _ _ _ _ _ _ => by omega)
      (fun _ _ _ _ => by rw [htr]; show _ ↔ _; omega) ht.1 hs s₁ e₁ s₂ e₂
    have k2 := fun {s₁ e₁ s₂ e₂ : ℕ} => @asc_gap o inp sol hd hB (fun e => c ≤ e) (fun _ _ _ _ _ _ _ => by omega)
      (fun _ _ _ _ => by rw [htr]; show _ ↔ _; omega) ht.2 hs s₁ e₁ s₂ e₂
    refine ⟨0, by omega, fun i hi hin j hj => desc 0 j i hj (by omega) fun s₁ s₂ b1 b2 => k1 b1 b2 hj (by omega) hin, fun hz i _ hi => ?_,
      fun i hi hin j hjc hj => asc 0 j i hj hin fun s₁ s₂ b1 b2 => k2 b1 b2 hj hjc hi, fun hz i hi hin => ?_⟩
    · exact dn 0 (by omega) ((hr (by simpa using hz)).1 i hi)
    · exact up 0 hin ((hr (by simpa using hz)).2 i hi hin)

theorem acceptsLS.complete {sol : ℕ → Bool} (hw : inp.Wf) (hd : 0 ≤ inp.minDiff) (hex : ExactTrend o.trend)
    (htc : ∀ tc, o.trend = .peakHeuristic tc ∨ o.trend = .valleyHeuristic tc → tc ≤ inp.n)
    (ha : Admissible o inp.n sol inp.ne inp.ev (rate6 inp)) (hs : Separated .consecutive inp.n sol (tooCloseLS o inp))
    (hr : inp.minDiff = 0 → KeepsRuns inp.n sol (rate6 inp) o.trend) :
    ∃ s, acceptsLS o inp s ∧ diagLS s = sol := by
  obtain ⟨c, hcn, htrend⟩ := trendLS_complete hw hd ha.binning hex htc ha.trend hs hr
  have hcore : CoreLS inp.n (witLS o inp sol c) := by
    have := encodeLS_core ha.binning
    exact ⟨this.pos, this.bool, this.space⟩
  have hdiag : diagLS (witLS o inp sol c) = sol := encodeLS_diag inp.n sol
  have hN : ∀ st e, IsBin inp.n sol st e → inp.tableNE e st = binTotal inp.ne st e := fun st e hb => cumAt_nonevent inp hb.2.1 hb.1
  have hE : ∀ st e, IsBin inp.n sol st e → inp.tableE e st = binTotal inp.ev st e := fun st e hb => cumAt_event inp hw hb.2.1 hb.1
  have hpos := hw.pos
  have hsz : ∀ i < inp.n, (witLS o inp sol c).x i = 0 ∨ (witLS o inp sol c).x i = 1 ∧
      AtLeast o.minSize (atLS inp.tableNE i ((witLS o inp sol c).z i) + atLS inp.tableE i ((witLS o inp sol c).z i)) ∧
      AtMost o.maxSize (atLS inp.tableNE i ((witLS o inp sol c).z i) + atLS inp.tableE i ((witLS o inp sol c).z i)) := fun i hi => by
    rcases hcore.pair hi with hx | ⟨hx, st, hb⟩
    · exact Or.inl hx
    · obtain ⟨t1, t2, t3⟩ := table_bin hw hcore hb
      rw [t2, t3]
      rw [hdiag] at hb
      exact Or.inr ⟨hx, ha.minSize st i hb, ha.maxSize st i hb⟩
  have hlast : (witLS o inp sol c).x (inp.n - 1) = 1 := hcore.space.1
  have hu : ∀ i, (witLS o inp sol c).u i = o.maxSize.getD 0 * (witLS o inp sol c).x i -
      (witLS o inp sol c).x i * (atLS inp.tableNE i ((witLS o inp sol c).z i) + atLS inp.tableE i ((witLS o inp sol c).z i)) := fun i => rfl
  refine ⟨witLS o inp sol c, ⟨⟨fun i hi => encodeLS_domain hi, fun _ => ⟨fun i _ => ?_, ?_, ?_⟩, ?_, ?_⟩, hcore.space, ?_, ?_, ?_, ?_, ?_, ?_⟩, hdiag⟩
  · show yWit c i = 0 ∨ yWit c i = 1
    unfold yWit
    split_ifs
    · exact Or.inr rfl
    · exact Or.inl rfl
  · show (0 : ℤ) ≤ (c : ℤ)
    omega
  · show (c : ℤ) ≤ inp.n
    omega
  · intro mn mx h1 h2
    have g1 := ha.minBins mn h1
    have g2 := ha.maxBins mx h2
    have : (witLS o inp sol c).d = mx - numBins inp.n sol := by show o.maxBins.getD 0 - _ = _; rw [h2]; rfl
    rw [this]
    omega
  · intro mn mx h1 h2 i hi
    rcases hsz (inp.n - 1) (by omega) with h0 | ⟨-, m1, m2⟩
    · omega
    · have m1 := m1 mn h1
      have m2 := m2 mx h2
      rw [hu i, h2]
      show 0 ≤ mx * _ - _ ∧ mx * _ - _ ≤ mx - mn
      rcases hsz i hi with h0 | ⟨h0, q1, q2⟩
      · rw [h0]; constructor <;> linarith
      · have q1 := q1 mn h1
        have q2 := q2 mx h2
        rw [h0]; constructor <;> linarith
  · rw [truncRat_md hd]; exact htrend
  · unfold minMaxBinsLS
    rw [hcore.total, hdiag]
    cases h3 : o.minBins <;> cases h4 : o.maxBins <;> simp only
    · exact ha.maxBins _ h4
    · exact ha.minBins _ h3
    · have : (witLS o inp sol c).d = o.maxBins.getD 0 - numBins inp.n sol := rfl
      rw [this, h4]
      simp
  · intro i hi
    cases h3 : o.minSize <;> cases h4 : o.maxSize <;> simp only
    · rcases hsz i hi with h0 | ⟨h0, q1, q2⟩
      · rw [h0]; simp
      · rw [h0]; have := q2 _ h4; linarith
    · rcases hsz i hi with h0 | ⟨h0, q1, q2⟩
      · rw [h0]; simp
      · rw [h0]; have := q1 _ h3; linarith
    · rw [hu i, h4]
      simp only [Option.getD_some]
      rcases hsz i hi with h0 | ⟨h0, q1, q2⟩
      · rw [h0]; simp
      · rw [h0]; have := q1 _ h3; have := q2 _ h4; constructor <;> linarith
  · refine (countLS_iff hcore _ _ _).2 ?_
    rw [hdiag]
    intro st e hb
    rw [hN st e hb]
    exact ⟨ha.minNonevent st e hb, ha.maxNonevent st e hb⟩
  · refine (countLS_iff hcore _ _ _).2 ?_
    rw [hdiag]
    intro st e hb
    rw [hE st e hb]
    exact ⟨ha.minEvent st e hb, ha.maxEvent st e hb⟩
  · intro f hf i hi hfi
    refine (hcore.end_iff (by omega)).1 ?_
    rw [hdiag]
    exact ha.fixed f hf i hi hfi

end

/-! ## Theorems -/

theorem solOf_mapLS (n : ℕ) (s : AssignLS) {k : ℕ} (hk : k < n) : solOf ((List.range n).map fun i => s.x i != 0) k = diagLS s k := by
  unfold solOf diagLS
  rw [List.getD_eq_getElem?_getD]
  simp [hk]

theorem solved_diagLS {o : Opts} {inp : BinaryInput} {ans : AnswerLS} (hv : ans.Valid o inp) (hs : Solved (solveLS inp.n ans)) :
    ∃ s, acceptsLS o inp s ∧ ∀ k < inp.n, diagLS s k = solOf (solveLS inp.n ans).2 k := by
  cases ans with
  | optimal s => exact ⟨s, hv.1, fun k hk => (solOf_mapLS inp.n s hk).symm⟩
  | feasible s => exact ⟨s, hv, fun k hk => (solOf_mapLS inp.n s hk).symm⟩
  | infeasible => rcases hs with h | h <;> exact absurd h (by simp [solveLS])
  | inconsistent => rcases hs with h | h <;> exact absurd h (by simp [solveLS])

/-- C112: no accepted assignment reads outside the rows of the tables, although the domains of the indices allow it: row `i` has
`i + 1` entries. -/
theorem C112_index_in_range {o : Opts} {inp : BinaryInput} {s : AssignLS} (hw : inp.Wf) (h : acceptsLS o inp s) {i : ℕ} (hi : i < inp.n) :
    0 ≤ s.z i ∧ s.z i ≤ i := by
  refine ⟨(h.1.1 i hi).2.2.1, ?_⟩
  rcases (h.core hw).pair hi with h0 | ⟨-, st, hb⟩
  · rw [(h.core hw).z_zero hi h0]; omega
  · rw [(h.core hw).z_bin hb]; omega

/-- C112: the records read at the end of a bin are those of the bin, for every table. -/
theorem C112_bins {o : Opts} {inp : BinaryInput} {s : AssignLS} (hw : inp.Wf) (h : acceptsLS o inp s) {st e : ℕ}
    (hb : IsBin inp.n (fun k => s.x k != 0) st e) :
    s.z e = (e : ℤ) - st ∧ atLS inp.tableNE e (s.z e) = binTotal inp.ne st e ∧ atLS inp.tableE e (s.z e) = binTotal inp.ev st e :=
  ⟨(h.core hw).z_bin hb, (table_bin hw (h.core hw) hb).2⟩

/-- C112: with the status OPTIMAL or FEASIBLE the returned binning is a partition meeting every limit, the fixed splits and the trend
(rates compared at precision 10⁻⁶). -/
theorem C112_admissible {o : Opts} {inp : BinaryInput} {ans : AnswerLS} (hw : inp.Wf) (hd : 0 ≤ inp.minDiff) (hv : ans.Valid o inp)
    (hs : Solved (solveLS inp.n ans)) :
    Admissible o inp.n (solOf (solveLS inp.n ans).2) inp.ne inp.ev (fun s e => ⌊eventRate inp.ne inp.ev s e * 1000000⌋) := by
  obtain ⟨s, h, hk⟩ := solved_diagLS hv hs
  exact admissible_congr hk (h.admissible hw hd)

/-- C112: `min_event_rate_diff` holds, up to the integer rounding, for every two bins on the same side of the trend (not only for
neighbouring ones). -/
theorem C112_min_event_rate_diff {o : Opts} {inp : BinaryInput} {ans : AnswerLS} (hw : inp.Wf) (hd : 0 ≤ inp.minDiff) (hv : ans.Valid o inp)
    (hs : Solved (solveLS inp.n ans)) {st e st' e' : ℕ} (b1 : IsBin inp.n (solOf (solveLS inp.n ans).2) st e)
    (b2 : IsBin inp.n (solOf (solveLS inp.n ans).2) st' e') (hlt : e < st') (hside : SameSide o.trend e e') :
    inp.minDiff - 2 / 1000000 < |eventRate inp.ne inp.ev st e - eventRate inp.ne inp.ev st' e'| := by
  obtain ⟨s, h, hk⟩ := solved_diagLS hv hs
  have hsep := separated_congr hk (h.separated hw hd) st e st' e' b1 b2 hlt (fun hc => by cases hc)
  rcases hd.eq_or_lt with h0 | h0
  · rw [← h0]
    exact lt_of_lt_of_le (by norm_num) (abs_nonneg _)
  · apply floor_abs
    by_contra hc
    exact hsep ⟨hside, h0, lt_of_not_ge hc⟩

/-- C112: unless the trend is "concave" or "convex", the binnings the solver can return are exactly those meeting the limits and the
trend, with neighbouring bins on one side of the trend far enough apart and, without `min_event_rate_diff`, no split inside a run
against the trend. -/
theorem C112_exact {o : Opts} {inp : BinaryInput} (hw : inp.Wf) (hd : 0 ≤ inp.minDiff) (hct : o.trend ≠ .concave ∧ o.trend ≠ .convex)
    (htc : ∀ tc, o.trend = .peakHeuristic tc ∨ o.trend = .valleyHeuristic tc → tc ≤ inp.n) (sol : ℕ → Bool) :
    (∃ s, acceptsLS o inp s ∧ ∀ k < inp.n, (s.x k != 0) = sol k) ↔
      Admissible o inp.n sol inp.ne inp.ev (fun s e => ⌊eventRate inp.ne inp.ev s e * 1000000⌋) ∧
      Separated .consecutive inp.n sol (fun s e s' e' => SameSide o.trend e e' ∧ tooClose6 inp s e s' e') ∧
      (inp.minDiff = 0 → KeepsRuns inp.n sol (fun s e => ⌊eventRate inp.ne inp.ev s e * 1000000⌋) o.trend) := by
  have hex : ExactTrend o.trend := by cases ht : o.trend <;> simp_all [ExactTrend]
  constructor
  · rintro ⟨s, hs, hk⟩
    refine ⟨admissible_congr hk (hs.admissible hw hd), separated_congr hk ?_, fun h0 => ?_⟩
    · exact fun st e st' e' b1 b2 hlt hc => hs.separated hw hd st e st' e' b1 b2 hlt (fun hh => by cases hh)
    · have hr := hs.runs hw h0 htc
      have hkk : ∀ {i : ℕ}, i + 1 < inp.n → diagLS s i = false → sol i = false := fun {i} hi hf => by
        rw [← hk i (by omega)]; exact hf
      cases ht : o.trend with
      | ascending => rw [ht] at hr; exact fun i hi hlt => hkk hi (hr i hi hlt)
      | descending => rw [ht] at hr; exact fun i hi hlt => hkk hi (hr i hi hlt)
      | peakHeuristic c =>
        have := htc c (Or.inl ht)
        rw [ht] at hr
        exact ⟨fun i hi hlt => hkk (by omega) (hr.1 i hi hlt), fun i hi hi' hlt => hkk hi' (hr.2 i hi hi' hlt)⟩
      | valleyHeuristic c =>
        have := htc c (Or.inr ht)
        rw [ht] at hr
        exact ⟨fun i hi hlt => hkk (by omega) (hr.1 i hi hlt), fun i hi hi' hlt => hkk hi' (hr.2 i hi hi' hlt)⟩
      | _ => trivial
  · rintro ⟨h1, h2, h3⟩
    obtain ⟨s, hs, hk⟩ := acceptsLS.complete hw hd hex htc h1 h2 h3
    exact ⟨s, hs, fun k _ => congrFun hk k⟩

/-- C112: the objective of an accepted assignment is the sum of the truncated divergences of its bins, the same as with `solver="cp"`. -/
theorem C112_objective {o : Opts} {inp : BinaryInput} {s : AssignLS} (hw : inp.Wf) (h : acceptsLS o inp s) :
    objectiveLS inp s = totalOverBins inp.n (fun k => s.x k != 0)
      (fun s e => truncReal (binDivergence inp.div inp.n inp.ne inp.ev s e * 1000000)) := by
  rw [(h.core hw).objective]
  refine totalOverBins_congr fun st e hb => ?_
  change truncReal (inp.iv e st * ((scale : ℤ) : ℝ)) = _
  rw [iv_eq inp hw hb.2.1 hb.1]
  simp [scale]

theorem totalLS {inp : BinaryInput} {s : AssignLS} {R : Type*} [AddCommMonoid R] (v : ℕ → ℕ → R) :
    totalOverBins inp.n (solOf (solveLS inp.n (.optimal s)).2) v = totalOverBins inp.n (fun k => s.x k != 0) v := by
  unfold totalOverBins
  have e : binsOf inp.n (solOf (solveLS inp.n (.optimal s)).2) = binsOf inp.n (fun k => s.x k != 0) :=
    binsOf_congr fun k hk => solOf_mapLS inp.n s hk
  rw [e]

/-- C112: with the status OPTIMAL no other such binning has a larger sum of truncated divergences. -/
theorem C112_optimal {o : Opts} {inp : BinaryInput} {ans : AnswerLS} (hw : inp.Wf) (hd : 0 ≤ inp.minDiff)
    (hct : o.trend ≠ .concave ∧ o.trend ≠ .convex)
    (htc : ∀ tc, o.trend = .peakHeuristic tc ∨ o.trend = .valleyHeuristic tc → tc ≤ inp.n)
    (hv : ans.Valid o inp) (hs : (solveLS inp.n ans).1 = "OPTIMAL") (sol : ℕ → Bool)
    (h1 : Admissible o inp.n sol inp.ne inp.ev (fun s e => ⌊eventRate inp.ne inp.ev s e * 1000000⌋))
    (h2 : Separated .consecutive inp.n sol (fun s e s' e' => SameSide o.trend e e' ∧ tooClose6 inp s e s' e'))
    (h3 : inp.minDiff = 0 → KeepsRuns inp.n sol (fun s e => ⌊eventRate inp.ne inp.ev s e * 1000000⌋) o.trend) :
    totalOverBins inp.n sol (fun s e => truncReal (binDivergence inp.div inp.n inp.ne inp.ev s e * 1000000)) ≤
      totalOverBins inp.n (solOf (solveLS inp.n ans).2)
        (fun s e => truncReal (binDivergence inp.div inp.n inp.ne inp.ev s e * 1000000)) := by
  obtain ⟨s', ha', hd'⟩ := acceptsLS.complete hw hd (by cases ht : o.trend <;> simp_all [ExactTrend]) htc h1 h2 h3
  cases ans with
  | optimal s =>
    have h := hv.2 s' ha'
    rw [C112_objective hw hv.1, C112_objective hw ha'] at h
    have e1 : (fun k => s'.x k != 0) = sol := hd'
    rw [e1] at h
    rw [totalLS]
    exact h
  | feasible s => exact absurd hs (by simp [solveLS])
  | infeasible => exact absurd hs (by simp [solveLS])
  | inconsistent => exact absurd hs (by simp [solveLS])

/-- C112: for an ascending or descending trend with at most a maximum number of bins, a status OPTIMAL means that no binning with that
trend has a divergence larger by more than 10⁻⁶ per bin, as with `solver="cp"` (C18). -/
theorem C112_monotone_optimal {o : Opts} {inp : BinaryInput} {ans : AnswerLS} (hw : inp.Wf) (ho : TrendAndMaxBins o)
    (hmix : ∀ k < inp.n, 0 < inp.ne k ∧ 0 < inp.ev k) (hmd : inp.minDiff = 0) (d : Divergence) (hdiv : inp.div = d.fn)
    (hv : ans.Valid o inp) (hs : (solveLS inp.n ans).1 = "OPTIMAL")
    (sol : ℕ → Bool) (hb : IsBinning inp.n sol) (hmax : AtMost o.maxBins (numBins inp.n sol))
    (ht : TrendHolds inp.n sol (eventRate inp.ne inp.ev) o.trend) :
    totalOverBins inp.n sol (binDivergence inp.div inp.n inp.ne inp.ev) ≤
      totalOverBins inp.n (solOf (solveLS inp.n ans).2) (binDivergence inp.div inp.n inp.ne inp.ev) + (numBins inp.n sol : ℝ) / 1000000 := by
  have hnn : ∀ sol' s e, IsBin inp.n sol' s e → 0 ≤ binDivergence inp.div inp.n inp.ne inp.ev s e := fun sol' s e h => by
    rw [hdiv]; exact binDivergence_nonneg (fun k hk => (hmix k hk).1) (fun k hk => (hmix k hk).2) d h
  obtain ⟨sol', g1, g2, g3, g4, g5⟩ := better_trend (fun k hk => (hmix k hk).1) (fun k hk => (hmix k hk).2) d ho.trend hb ht
  rw [← hdiv] at g5
  have hfl : ∀ s e s' e', eventRate inp.ne inp.ev s e ≤ eventRate inp.ne inp.ev s' e' →
      ⌊eventRate inp.ne inp.ev s e * 1000000⌋ ≤ ⌊eventRate inp.ne inp.ev s' e' * 1000000⌋ := fun s e s' e' h => Int.floor_mono (by linarith)
  have h := C112_optimal hw hmd.ge (by rcases ho.trend with h | h <;> rw [h] <;> simp)
    (by rcases ho.trend with h | h <;> rw [h] <;> simp) hv hs sol'
    (trendOnly_admissible ho hmax g1 g3 (trend_mono ho.trend (r' := fun s e => ⌊eventRate inp.ne inp.ev s e * 1000000⌋) hfl g2))
    (fun s e s' e' _ _ _ _ hc => by have := hc.2.1; rw [hmd] at this; exact lt_irrefl _ this)
    (fun _ => by
      rcases g4 with ⟨hh, g4⟩ | ⟨hh, g4⟩
      · rw [hh]
        intro i hi hlt
        by_contra hc
        have := hfl _ _ _ _ (g4 i hi (by simpa using hc) i le_rfl)
        exact absurd hlt (not_lt.2 this)
      · rw [hh]
        intro i hi hlt
        by_contra hc
        have := hfl _ _ _ _ (g4 i hi (by simpa using hc) i le_rfl)
        exact absurd hlt (not_lt.2 this))
  have t1 := (total_trunc (n := inp.n) (sol := sol') (hnn sol')).2
  have t2 := (total_trunc (n := inp.n) (sol := solOf (solveLS inp.n ans).2) (hnn _)).1
  have h' : ((totalOverBins inp.n sol' (fun s e => truncReal (binDivergence inp.div inp.n inp.ne inp.ev s e * 1000000)) : ℤ) : ℝ) ≤
      ((totalOverBins inp.n (solOf (solveLS inp.n ans).2)
        (fun s e => truncReal (binDivergence inp.div inp.n inp.ne inp.ev s e * 1000000)) : ℤ) : ℝ) := by
    exact_mod_cast h
  have h3 : ((numBins inp.n sol' : ℕ) : ℝ) ≤ numBins inp.n sol := by exact_mod_cast g3
  linarith

/-- C112: where the two formulations state the same constraints — no `max_pvalue`, no regularisation, and either an ascending or
descending trend with a positive `min_event_rate_diff` or a trend without cuts and no `min_event_rate_diff` — the optimal solutions of
`solver="ls"` and `solver="cp"` have the same objective value. -/
theorem C112_agrees_with_cp {o : Opts} {inp : BinaryInput} {reg : ℤ} {ansL : AnswerLS} {ans : SolverAnswer} (hw : inp.Wf)
    (htest : inp.test = none) (hg : o.gamma = false)
    (hcase : (o.trend = .ascending ∨ o.trend = .descending) ∧ 0 < inp.minDiff ∨
      (o.trend = .unconstrained ∨ o.trend = .peak ∨ o.trend = .valley) ∧ inp.minDiff = 0)
    (hvL : ansL.Valid o inp) (hsL : (solveLS inp.n ansL).1 = "OPTIMAL")
    (hv : ans.Valid (acceptsCP o inp) (objectiveCP o inp reg)) (hs : (solve inp.n ans).1 = "OPTIMAL") :
    totalOverBins inp.n (solOf (solveLS inp.n ansL).2) (fun s e => truncReal (binDivergence inp.div inp.n inp.ne inp.ev s e * 1000000)) =
      totalOverBins inp.n (solOf (solve inp.n ans).2) (fun s e => truncReal (binDivergence inp.div inp.n inp.ne inp.ev s e * 1000000)) := by
  have hd : 0 ≤ inp.minDiff := by rcases hcase with ⟨-, h⟩ | ⟨-, h⟩ <;> [exact h.le; exact h.ge]
  have hct : o.trend ≠ .concave ∧ o.trend ≠ .convex := by
    rcases hcase with ⟨h | h, -⟩ | ⟨h | h | h, -⟩ <;> rw [h] <;> simp
  have htc : ∀ tc, o.trend = .peakHeuristic tc ∨ o.trend = .valleyHeuristic tc → tc ≤ inp.n := by
    rcases hcase with ⟨h | h, -⟩ | ⟨h | h | h, -⟩ <;> rw [h] <;> simp
  have hns : NoShortcuts o inp := ⟨by
    rcases hcase with ⟨-, h⟩ | ⟨h, -⟩
    · exact Or.inr h.ne'
    · exact Or.inl h, hct, htc⟩
  obtain ⟨a1, -, a3⟩ := cp_master hw hv (Or.inl hs)
  have b1 := C112_admissible hw hd hvL (Or.inl hsL)
  obtain ⟨sL, hsL', hkL⟩ := solved_diagLS hvL (Or.inl hsL)
  refine le_antisymm (C18_optimal_cp_partial hw hns hg hv hs _ b1 ?_ ?_) (C112_optimal hw hd hct htc hvL hsL _ a1 ?_ ?_)
  · rintro s e s' e' - - - - ⟨t, ht, -⟩
    rw [htest] at ht; cases ht
  · intro s e s' e' c1 c2 hlt hc htoo
    refine separated_congr hkL (hsL'.separated hw hd) s e s' e' c1 c2 hlt (fun hh => by cases hh) ⟨?_, htoo⟩
    rcases hcase with ⟨h | h, -⟩ | ⟨-, h⟩
    · rw [h]; trivial
    · rw [h]; trivial
    · have := htoo.1; rw [h] at this; exact (lt_irrefl _ this).elim
  · exact fun s e s' e' c1 c2 hlt hc htoo => a3 s e s' e' c1 c2 hlt hc htoo.2
  · intro h0
    rcases hcase with ⟨-, h⟩ | ⟨h | h | h, -⟩
    · rw [h0] at h; exact (lt_irrefl _ h).elim
    · rw [h]; trivial
    · rw [h]; trivial
    · rw [h]; trivial

/-- C112: with the status INFEASIBLE or INCONSISTENT the result is one bin with all records. -/
theorem C112_fallback {n : ℕ} (hn : 0 < n) {ans : AnswerLS} (hns : ¬ Solved (solveLS n ans)) (s e : ℕ) :
    IsBin n (solOf (solveLS n ans).2) s e ↔ s = 0 ∧ e = n - 1 := by
  have := C19_fallback_single_bin hn (ans := .other (solveLS n ans).1) (fun h => hns (by simpa [Solved, solve] using h)) s e
  cases ans with
  | optimal a => exact absurd (Or.inl rfl) hns
  | feasible a => exact absurd (Or.inr rfl) hns
  | infeasible => exact this
  | inconsistent => exact this


/-- Whenever some binning is accepted, an optimal one exists: the theorems about the status OPTIMAL are not vacuous. -/
theorem exists_optimalLS {o : Opts} {inp : BinaryInput} (hw : inp.Wf) (h : ∃ s, acceptsLS o inp s) : ∃ s, (AnswerLS.optimal s).Valid o inp := by
  classical
  obtain ⟨s₀, h₀⟩ := h
  have hfin : (objectiveLS inp '' {s | acceptsLS o inp s}).Finite := by
    refine ((range inp.n).powerset.finite_toSet.image
      fun F => totalOverBins inp.n (fun k => decide (k ∈ F)) (fun st e => inp.ivCP e st)).subset ?_
    rintro _ ⟨s, hs, rfl⟩
    refine ⟨(range inp.n).filter (fun k => diagLS s k = true), Finset.mem_coe.2 (Finset.mem_powerset.2 (Finset.filter_subset _ _)), ?_⟩
    rw [(acceptsLS.core hw hs).objective]
    show totalOverBins inp.n _ _ = _
    unfold totalOverBins
    rw [binsOf_congr (sol' := diagLS s) fun k hk => by simp [hk]]
  obtain ⟨m, ⟨s, hs, rfl⟩, hmax⟩ := Set.exists_max_image _ (fun z : ℤ => z) hfin ⟨_, s₀, h₀, rfl⟩
  exact ⟨s, hs, fun s' hs' => hmax _ ⟨s', hs', rfl⟩⟩

/-- With every option set and an ascending, peak or unconstrained trend the three-bin binning of the running example is accepted; an
optimal answer exists and its bins differ by 0.1. -/
example (tr : Trend) (htr : tr = .ascending ∨ tr = .peak ∨ tr = .unconstrained ∨ tr = .peakHeuristic 4) :
    (∃ s, acceptsLS (exOpts tr) exInp2 s ∧ ∀ k < exInp2.n, (s.x k != 0) = exSol k) ∧
    ∃ s, (AnswerLS.optimal s).Valid (exOpts tr) exInp2 ∧ Solved (solveLS exInp2.n (.optimal s)) := by
  obtain ⟨-, hadm, -⟩ := exRich tr htr
  have hd : (0 : ℚ) ≤ exInp2.minDiff := by show (0 : ℚ) ≤ 1 / 10; norm_num
  have hne : exInp2.minDiff ≠ 0 := by show (1 / 10 : ℚ) ≠ 0; norm_num
  have key := (C112_exact (o := exOpts tr) exInp2_wf hd (by rcases htr with rfl | rfl | rfl | rfl <;> simp [exOpts])
    (by rintro tc (h | h) <;> rcases htr with rfl | rfl | rfl | rfl <;> simp [exOpts] at h
        subst h; exact le_of_eq rfl) exSol).2
    ⟨hadm, fun s e s' e' b1 b2 hlt hc hbad => (exSol_sep .all).2 s e s' e' b1 b2 hlt (fun _ => hc rfl) hbad.2, fun h0 => absurd h0 hne⟩
  refine ⟨key, ?_⟩
  obtain ⟨s, hs⟩ := exists_optimalLS exInp2_wf ⟨_, key.choose_spec.1⟩
  exact ⟨s, hs, Or.inl rfl⟩

/-- Two pre-bins with the same event rate 1/2, `min_event_rate_diff = 0.1`. -/
noncomputable def exFlat : BinaryInput where
  nonevent := [10, 10]
  event := [10, 10]
  div := fun p q => (p - q) * Real.log (p / q)
  minDiff := 1 / 10

theorem exFlat_wf : exFlat.Wf := ⟨rfl, by decide⟩

/-- C112, finding: with a heuristic trend `min_event_rate_diff` is not enforced across the change point: two neighbouring bins with
the same event rate are accepted although `min_event_rate_diff = 0.1`, and `solver="cp"` refuses them. -/
theorem C112_change_point_gap :
    (∃ s, acceptsLS { trend := .peakHeuristic 1 } exFlat s ∧ ∀ k < 2, (s.x k != 0) = true) ∧
    eventRate exFlat.ne exFlat.ev 0 0 = eventRate exFlat.ne exFlat.ev 1 1 ∧ exFlat.minDiff = 1 / 10 ∧
    ¬ ∃ a, acceptsCP { trend := .peakHeuristic 1 } exFlat a ∧ ∀ k < 2, (a.x k k != 0) = true := by
  have hbins : ∀ {s e : ℕ}, IsBin 2 (fun _ => true) s e ↔ s = e ∧ e < 2 := fun {s e} => by
    constructor
    · rintro ⟨h1, h2, h3, h4, h5⟩
      refine ⟨?_, h2⟩
      by_contra hne
      exact absurd (h5 s le_rfl (by omega)) (by simp)
    · rintro ⟨rfl, h⟩
      exact ⟨le_rfl, h, rfl, by simp, fun k hk hk' => by omega⟩
  have hr : eventRate exFlat.ne exFlat.ev 0 0 = 1 / 2 ∧ eventRate exFlat.ne exFlat.ev 1 1 = 1 / 2 := by
    unfold eventRate binTotal BinaryInput.ne BinaryInput.ev exFlat
    constructor <;> norm_num
  have hmd : exFlat.minDiff = 1 / 10 := rfl
  refine ⟨?_, by rw [hr.1, hr.2], hmd, ?_⟩
  · refine (C112_exact (o := { trend := .peakHeuristic 1 }) exFlat_wf (by rw [hmd]; norm_num) (by simp) ?_ (fun _ => true)).2
      ⟨⟨⟨by decide, rfl⟩, ?_, ?_, ?_, ?_, ?_, ?_, ?_, ?_, ⟨?_, ?_⟩, ?_⟩, ?_, fun h => ?_⟩
    · rintro tc (h | h) <;> simp at h
      subst h; decide
    · intro b hb; cases hb
    · intro b hb; cases hb
    · intro _ _ _ b hb; cases hb
    · intro _ _ _ b hb; cases hb
    · intro _ _ _ b hb; cases hb
    · intro _ _ _ b hb; cases hb
    · intro _ _ _ b hb; cases hb
    · intro _ _ _ b hb; cases hb
    · intro s e s' e' b1 b2 hlt p1 p2; omega
    · intro s e s' e' b1 b2 hlt p1 p2
      have : e' < 2 := b2.2.1
      omega
    · intro f hf; cases hf
    · rintro s e s' e' b1 b2 hlt - ⟨hside, -⟩
      have h1 := b2.1
      have h2 : e' < 2 := b2.2.1
      have h3 : e < 1 ↔ e' < 1 := hside
      omega
    · rw [hmd] at h; norm_num at h
  · rintro ⟨a, ha, hk⟩
    have hsep := (ha.separated exFlat_wf).2
    have hd : ∀ k < 2, diag a.x k = (fun _ => true) k := hk
    have := separated_congr (n := 2) hd hsep 0 0 1 1 (hbins.2 ⟨rfl, by omega⟩) (hbins.2 ⟨rfl, by omega⟩) (by omega) (fun _ => rfl)
    refine this ⟨by rw [hmd]; norm_num, ?_⟩
    unfold rate6
    rw [hr.1, hr.2, hmd]
    norm_num

/-- The running example with the divergence of the code. -/
noncomputable def exInpIV : BinaryInput := { exInp with div := Divergence.iv.fn }

theorem exInpIV_wf : exInpIV.Wf := ⟨rfl, by decide⟩

/-- The hypotheses of `C112_monotone_optimal` and `C112_agrees_with_cp` are met by the running example. -/
example : TrendAndMaxBins { trend := .ascending, maxBins := some 3 } ∧ exInpIV.Wf ∧ exInpIV.minDiff = 0 ∧
    (∀ k < exInpIV.n, 0 < exInpIV.ne k ∧ 0 < exInpIV.ev k) ∧ (∃ d : Divergence, exInpIV.div = d.fn) ∧
    ∃ s, (AnswerLS.optimal s).Valid { trend := .ascending, maxBins := some 3 } exInpIV := by
  have ho : TrendAndMaxBins { trend := .ascending, maxBins := some 3 } := ⟨Or.inl rfl, rfl, rfl, rfl, rfl, rfl, rfl, rfl, rfl, rfl⟩
  have hmix : ∀ k < exInpIV.n, 0 < exInpIV.ne k ∧ 0 < exInpIV.ev k := by
    intro k hk
    have hk : k < 4 := hk
    interval_cases k <;> exact ⟨by decide, by decide⟩
  refine ⟨ho, exInpIV_wf, rfl, hmix, ⟨.iv, rfl⟩, exists_optimalLS exInpIV_wf ?_⟩
  have hone : ∀ {s e : ℕ}, IsBin 4 (fun k => k == 3) s e → e = 3 := fun {s e} h => by simpa using h.2.2.1
  obtain ⟨s, hs, -⟩ := (C112_exact (o := { trend := .ascending, maxBins := some 3 }) exInpIV_wf le_rfl (by simp) (by simp) (fun k => k == 3)).2
    ⟨trendOnly_admissible (sol := fun k => k == 3) ho (fun b hb => by cases hb; decide) ⟨by decide, rfl⟩ le_rfl
      (fun s e s' e' b1 b2 hlt _ _ => by have := hone b1; have := hone b2; omega),
      fun s e s' e' b1 b2 hlt _ => by have := hone b1; have := b2.1; have := hone b2; omega,
      fun _ i hi _ => by have : i + 1 < 4 := hi; simp; omega⟩
  exact ⟨s, hs⟩

/-- A status without solution. -/
example : IsBin 4 (solOf (solveLS 4 .infeasible).2) 0 3 := by
  refine (C112_fallback (by decide) ?_ 0 3).2 ⟨rfl, rfl⟩
  rintro (h | h) <;> simp [solveLS] at h

end OptBinning
