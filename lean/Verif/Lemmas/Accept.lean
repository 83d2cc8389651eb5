import Verif.Lemmas.Partition
import Verif.Spec.Admissible
import Mathlib.Tactic.Push

/-! Equivalence between solver constraints and the specification, constraint by constraint. -/
namespace OptBinning
open Finset Spec

variable {R : Type*} [CommRing R] [LinearOrder R] [IsStrictOrderedRing R]

theorem Core.one_or {n : ℕ} {x : ℕ → ℕ → ℤ} (h : Core n x) {i : ℕ} (hi : i < n) :
    (x i i = 0) ∨ (x i i = 1 ∧ ∃ s, IsBin n (diag x) s i) := by
  rcases h.bool i hi i le_rfl with h0 | h1
  · exact Or.inl h0
  · exact Or.inr ⟨h1, exists_start n _ hi ((diag_eq_true h hi).2 h1)⟩

theorem Core.end_one {n : ℕ} {x : ℕ → ℕ → ℤ} (h : Core n x) {s e : ℕ} (hb : IsBin n (diag x) s e) : x e e = 1 :=
  (diag_eq_true h hb.2.1).1 hb.2.2.1

/-! ### limits -/

theorem minMaxBins_sound {o : Opts} {n : ℕ} {a : Assign} (h : Core n a.x)
    (hd : ∀ mn mx, o.minBins = some mn → o.maxBins = some mx → 0 ≤ a.d ∧ a.d ≤ mx - mn)
    (hc : minMaxBins o n a.x a.d) :
    AtLeast o.minBins (numBins n (diag a.x)) ∧ AtMost o.maxBins (numBins n (diag a.x)) := by
  unfold minMaxBins at hc
  rw [h.trace] at hc
  unfold AtLeast AtMost
  cases hmn : o.minBins with
  | none =>
    cases hmx : o.maxBins with
    | none => simp
    | some mx => simp only [hmn, hmx] at hc; simpa using hc
  | some mn =>
    cases hmx : o.maxBins with
    | none => simp only [hmn, hmx] at hc; simpa using hc
    | some mx =>
      simp only [hmn, hmx] at hc
      have := hd mn mx hmn hmx
      simp only [Option.some.injEq, forall_eq']
      omega

theorem minMaxBinSize_sound {o : Opts} {n : ℕ} {x : ℕ → ℕ → ℤ} {u : ℕ → ℤ} {c : ℕ → ℤ} (h : Core n x)
    (hu : ∀ mn mx, o.minSize = some mn → o.maxSize = some mx → ∀ i < n, 0 ≤ u i ∧ u i ≤ mx - mn)
    (hc : minMaxBinSize o n x u c) {s e : ℕ} (hb : IsBin n (diag x) s e) :
    AtLeast o.minSize (binTotal c s e) ∧ AtMost o.maxSize (binTotal c s e) := by
  unfold minMaxBinSize at hc
  unfold AtLeast AtMost
  have h1 := h.end_one hb
  have h2 := h.rowTotal_bin c hb
  have he := hb.2.1
  cases hmn : o.minSize with
  | none =>
    cases hmx : o.maxSize with
    | none => simp
    | some mx =>
      simp only [hmn, hmx] at hc
      have := hc e he
      simp only [reduceCtorEq, false_implies, implies_true, Option.some.injEq, forall_eq', true_and]
      rw [h1, h2] at this
      omega
  | some mn =>
    cases hmx : o.maxSize with
    | none =>
      simp only [hmn, hmx] at hc
      have := hc e he
      simp only [reduceCtorEq, false_implies, implies_true, Option.some.injEq, forall_eq', and_true]
      rw [h1, h2] at this
      omega
    | some mx =>
      simp only [hmn, hmx] at hc
      have h3 := hc e he
      have h4 := hu mn mx hmn hmx e he
      simp only [Option.some.injEq, forall_eq']
      rw [h1, h2] at h3
      omega

theorem minMaxCount_iff {mn mx : Option ℤ} {n : ℕ} {x : ℕ → ℕ → ℤ} {c : ℕ → ℤ} (h : Core n x) :
    minMaxCount mn mx n x c ↔
      ∀ s e, IsBin n (diag x) s e → AtLeast mn (binTotal c s e) ∧ AtMost mx (binTotal c s e) := by
  constructor
  · intro hc s e hb
    have h1 := h.end_one hb
    have h2 := h.rowTotal_bin c hb
    have h3 := hc e hb.2.1
    rw [h1, h2] at h3
    refine ⟨fun b hb' => ?_, fun b hb' => ?_⟩
    · have := h3.1 b hb'; omega
    · have := h3.2 b hb'; omega
  · intro hc i hi
    rcases h.one_or hi with h0 | ⟨h1, s, hb⟩
    · rw [h.rowTotal_none c hi h0, h0]; simp
    · rw [h.rowTotal_bin c hb, h1]
      have := hc s i hb
      refine ⟨fun b hb' => ?_, fun b hb' => ?_⟩
      · have := this.1 b hb'; omega
      · have := this.2 b hb'; omega

/-- Witness for the auxiliary variable `d`. -/
def dWit (o : Opts) (n : ℕ) (sol : ℕ → Bool) : ℤ := o.maxBins.getD 0 - numBins n sol

theorem minMaxBins_complete {o : Opts} {n : ℕ} {x : ℕ → ℕ → ℤ} (h : Core n x)
    (h1 : AtLeast o.minBins (numBins n (diag x))) (h2 : AtMost o.maxBins (numBins n (diag x))) :
    (∀ mn mx, o.minBins = some mn → o.maxBins = some mx →
        0 ≤ dWit o n (diag x) ∧ dWit o n (diag x) ≤ mx - mn) ∧
      minMaxBins o n x (dWit o n (diag x)) := by
  unfold minMaxBins dWit
  rw [h.trace]
  unfold AtLeast AtMost at *
  constructor
  · intro mn mx hmn hmx
    have a1 := h1 mn hmn
    have a2 := h2 mx hmx
    rw [hmx]; simp only [Option.getD_some]; omega
  · cases hmn : o.minBins with
    | none =>
      cases hmx : o.maxBins with
      | none => trivial
      | some mx => exact h2 mx hmx
    | some mn =>
      cases hmx : o.maxBins with
      | none => exact h1 mn hmn
      | some mx => simp

/-- Witness for the auxiliary variables `u`. -/
def uWit (o : Opts) (x : ℕ → ℕ → ℤ) (c : ℕ → ℤ) (i : ℕ) : ℤ := o.maxSize.getD 0 * x i i - rowTotal c x i

theorem minMaxBinSize_complete {o : Opts} {n : ℕ} {x : ℕ → ℕ → ℤ} {c : ℕ → ℤ} (h : Core n x) (hn : 0 < n)
    (h1 : ∀ s e, IsBin n (diag x) s e → AtLeast o.minSize (binTotal c s e) ∧ AtMost o.maxSize (binTotal c s e)) :
    (∀ mn mx, o.minSize = some mn → o.maxSize = some mx → ∀ i < n, 0 ≤ uWit o x c i ∧ uWit o x c i ≤ mx - mn) ∧
      minMaxBinSize o n x (uWit o x c) c := by
  have hall : ∀ mn mx, o.minSize = some mn → o.maxSize = some mx → mn ≤ mx := by
    intro mn mx hmn hmx
    obtain ⟨s, hb⟩ := exists_start n (diag x) (show n - 1 < n by omega) (h.isBinning hn).2
    have a1 := (h1 s _ hb).1 mn hmn
    have a2 := (h1 s _ hb).2 mx hmx
    omega
  unfold minMaxBinSize uWit
  constructor
  · intro mn mx hmn hmx i hi
    rw [hmx]
    simp only [Option.getD_some]
    rcases h.one_or hi with h0 | ⟨h1', s, hb⟩
    · rw [h.rowTotal_none c hi h0, h0]
      have := hall mn mx hmn hmx
      omega
    · rw [h.rowTotal_bin c hb, h1']
      have a1 := (h1 s _ hb).1 mn hmn
      have a2 := (h1 s _ hb).2 mx hmx
      omega
  · cases hmn : o.minSize with
    | none =>
      cases hmx : o.maxSize with
      | none => trivial
      | some mx =>
        intro i hi
        rcases h.one_or hi with h0 | ⟨h1', s, hb⟩
        · rw [h.rowTotal_none c hi h0, h0]; simp
        · rw [h.rowTotal_bin c hb, h1']
          have a2 := (h1 s _ hb).2 mx hmx
          omega
    | some mn =>
      cases hmx : o.maxSize with
      | none =>
        intro i hi
        rcases h.one_or hi with h0 | ⟨h1', s, hb⟩
        · rw [h.rowTotal_none c hi h0, h0]; simp
        · rw [h.rowTotal_bin c hb, h1']
          have a2 := (h1 s _ hb).1 mn hmn
          omega
      | some mx =>
        intro i hi
        refine ⟨by simp, ?_⟩
        rcases h.one_or hi with h0 | ⟨h1', s, hb⟩
        · rw [h.rowTotal_none c hi h0, h0]; simp
        · rw [h.rowTotal_bin c hb, h1']
          have a1 := (h1 s _ hb).1 mn hmn
          simp only [Option.getD_some]
          omega

/-! ### monotonicity -/

omit [IsStrictOrderedRing R] in
theorem Core.rate_bounds {n : ℕ} {x : ℕ → ℕ → ℤ} (h : Core n x) {M : R} (hM : 0 ≤ M) {D : ℕ → ℕ → R}
    (hD : ∀ i < n, ∀ j ≤ i, 0 ≤ D i j ∧ D i j ≤ M) {i : ℕ} (hi : i < n) :
    0 ≤ rowRate D x i ∧ rowRate D x i ≤ M := by
  rcases h.one_or hi with h0 | ⟨_, s, hb⟩
  · rw [h.rowRate_none D hi h0]; exact ⟨le_rfl, hM⟩
  · rw [h.rowRate_bin D hb]; exact hD i hi s hb.1

omit [IsStrictOrderedRing R] in
theorem ascIneq_eq (M : R) (D : ℕ → ℕ → R) (x : ℕ → ℕ → ℤ) (z i : ℕ) :
    ascIneq M D x z i ↔ rowRate D x z - M + M * (x i i : R) - rowRate D x i ≤ 0 := by
  unfold ascIneq rowRate
  rw [show rowS D x z + D z z * (x z z : R) - M - (D i i - M) * (x i i : R) - rowS D x i
    = rowS D x z + D z z * (x z z : R) - M + M * (x i i : R) - (rowS D x i + D i i * (x i i : R)) by ring]

omit [IsStrictOrderedRing R] in
theorem descIneq_eq (M : R) (D : ℕ → ℕ → R) (x : ℕ → ℕ → ℤ) (z i : ℕ) :
    descIneq M D x z i ↔ rowRate D x i - M + M * (x z z : R) - rowRate D x z ≤ 0 := by
  unfold descIneq rowRate
  rw [show rowS D x i + D i i * (x i i : R) - M - (D z z - M) * (x z z : R) - rowS D x z
    = rowS D x i + D i i * (x i i : R) - M + M * (x z z : R) - (rowS D x z + D z z * (x z z : R)) by ring]

theorem asc_sound {n : ℕ} {x : ℕ → ℕ → ℤ} (h : Core n x) {M : R} {D : ℕ → ℕ → R} {s e s' e' : ℕ}
    (hb : IsBin n (diag x) s e) (hb' : IsBin n (diag x) s' e') (hc : ascIneq M D x e e') : D e s ≤ D e' s' := by
  rw [ascIneq_eq, h.rowRate_bin D hb, h.rowRate_bin D hb', h.end_one hb'] at hc
  push_cast at hc
  linarith

theorem desc_sound {n : ℕ} {x : ℕ → ℕ → ℤ} (h : Core n x) {M : R} {D : ℕ → ℕ → R} {s e s' e' : ℕ}
    (hb : IsBin n (diag x) s e) (hb' : IsBin n (diag x) s' e') (hc : descIneq M D x e e') : D e' s' ≤ D e s := by
  rw [descIneq_eq, h.rowRate_bin D hb, h.rowRate_bin D hb', h.end_one hb] at hc
  push_cast at hc
  linarith

theorem asc_complete {n : ℕ} {x : ℕ → ℕ → ℤ} (h : Core n x) {M : R} (hM : 0 ≤ M) {D : ℕ → ℕ → R}
    (hD : ∀ i < n, ∀ j ≤ i, 0 ≤ D i j ∧ D i j ≤ M) {z i : ℕ} (hz : z < n) (hi : i < n)
    (hr : ∀ s s', IsBin n (diag x) s z → IsBin n (diag x) s' i → D z s ≤ D i s') : ascIneq M D x z i := by
  rw [ascIneq_eq]
  have bz := h.rate_bounds hM hD hz
  have bi := h.rate_bounds hM hD hi
  rcases h.one_or hi with h0 | ⟨h1, s', hb'⟩
  · rw [h0]; push_cast; linarith [bz.2, bi.1]
  · rcases h.one_or hz with h0 | ⟨h1z, s, hb⟩
    · rw [h.rowRate_none D hz h0, h1]; push_cast; linarith [bi.1]
    · rw [h.rowRate_bin D hb, h.rowRate_bin D hb', h1]
      push_cast
      linarith [hr s s' hb hb']

theorem desc_complete {n : ℕ} {x : ℕ → ℕ → ℤ} (h : Core n x) {M : R} (hM : 0 ≤ M) {D : ℕ → ℕ → R}
    (hD : ∀ i < n, ∀ j ≤ i, 0 ≤ D i j ∧ D i j ≤ M) {z i : ℕ} (hz : z < n) (hi : i < n)
    (hr : ∀ s s', IsBin n (diag x) s z → IsBin n (diag x) s' i → D i s' ≤ D z s) : descIneq M D x z i := by
  rw [descIneq_eq]
  have bz := h.rate_bounds hM hD hz
  have bi := h.rate_bounds hM hD hi
  rcases h.one_or hz with h0 | ⟨h1, s, hb⟩
  · rw [h0]; push_cast; linarith [bi.2, bz.1]
  · rcases h.one_or hi with h0 | ⟨h1z, s', hb'⟩
    · rw [h.rowRate_none D hi h0, h1]; push_cast; linarith [bz.1]
    · rw [h.rowRate_bin D hb, h.rowRate_bin D hb', h1]
      push_cast
      linarith [hr s s' hb hb']

omit [LinearOrder R] [IsStrictOrderedRing R] in
/-- First inequality of the peak / second of the valley formulation. -/
theorem peak_first_eq (M : R) (D : ℕ → ℕ → R) (x : ℕ → ℕ → ℤ) (z i : ℕ) (c : R) :
    M * c + M + (D z z - M) * (x z z : R) + rowS D x z - rowS D x i - D i i * (x i i : R)
      = M * c + M - M * (x z z : R) + rowRate D x z - rowRate D x i := by
  unfold rowRate; ring

theorem change_cases {n : ℕ} {y : ℕ → ℤ} {t : ℤ} (hy : ∀ i < n, y i = 0 ∨ y i = 1) (ht : 0 ≤ t) (htn : t ≤ n)
    (h : changePoint n y t) :
    ∃ c : ℕ, ∀ i < n, (i < c → y i = 1) ∧ (c ≤ i → y i = 0) := by
  obtain ⟨T, rfl⟩ := Int.eq_ofNat_of_zero_le ht
  by_cases hyt : T < n ∧ y T = 1
  · refine ⟨T + 1, fun i hi => ⟨fun hic => ?_, fun hci => ?_⟩⟩
    · rcases Nat.lt_or_ge i T with hlt | hge
      · have h1 := (h i hi).2
        rcases hy i hi with h0 | h0
        · rw [h0] at h1; omega
        · exact h0
      · have : i = T := by omega
        rw [this]; exact hyt.2
    · have h1 := (h i hi).1
      rcases hy i hi with h0 | h0
      · exact h0
      · rw [h0] at h1; omega
  · refine ⟨T, fun i hi => ⟨fun hic => ?_, fun hci => ?_⟩⟩
    · have h1 := (h i hi).2
      rcases hy i hi with h0 | h0
      · rw [h0] at h1; omega
      · exact h0
    · rcases hy i hi with h0 | h0
      · exact h0
      · rcases Nat.lt_or_ge T i with hlt | hge
        · have h1 := (h i hi).1
          rw [h0] at h1; omega
        · have : i = T := by omega
          exact absurd ⟨by omega, by rw [← this]; exact h0⟩ hyt

/-- Every accepted assignment satisfies the requested trend. -/
theorem trend_sound {o : Opts} {n : ℕ} {a : Assign} (h : Core n a.x) {M : R} {D : ℕ → ℕ → R}
    (hy : (o.trend = .peak ∨ o.trend = .valley) → (∀ i < n, a.y i = 0 ∨ a.y i = 1) ∧ 0 ≤ a.t ∧ a.t ≤ n)
    (hc : monotonicity o M n D a) : TrendHolds n (diag a.x) (fun s e => D e s) o.trend := by
  unfold monotonicity at hc
  cases ht : o.trend with
  | unconstrained => trivial
  | ascending =>
    simp only [ht] at hc
    intro s e s' e' hb hb' hlt _ _
    exact asc_sound h hb hb' (hc.1 e' (by omega) hb'.2.1 e hlt)
  | descending =>
    simp only [ht] at hc
    intro s e s' e' hb hb' hlt _ _
    exact desc_sound h hb hb' (hc.1 e' (by omega) hb'.2.1 e hlt)
  | concave =>
    simp only [ht] at hc
    intro s₁ e₁ s₂ e₂ s₃ e₃ h1 h2 h3 h12 h23
    have := hc e₃ (by omega) h3.2.1 e₂ (by omega) h23 e₁ h12
    rw [h.rowRate_bin D h1, h.rowRate_bin D h2, h.rowRate_bin D h3, h.end_one h1, h.end_one h2, h.end_one h3] at this
    push_cast at this
    linarith
  | convex =>
    simp only [ht] at hc
    intro s₁ e₁ s₂ e₂ s₃ e₃ h1 h2 h3 h12 h23
    have := hc e₃ (by omega) h3.2.1 e₂ (by omega) h23 e₁ h12
    rw [h.rowRate_bin D h1, h.rowRate_bin D h2, h.rowRate_bin D h3, h.end_one h1, h.end_one h2, h.end_one h3] at this
    push_cast at this
    linarith
  | peak =>
    simp only [ht] at hc
    obtain ⟨hy1, ht0, htn⟩ := hy (Or.inl ht)
    obtain ⟨c, hcp⟩ := change_cases hy1 ht0 htn hc.1
    refine ⟨c, ?_, ?_⟩
    · intro s e s' e' hb hb' hlt h1 h2
      have := (hc.2 e' (by omega) hb'.2.1 e hlt).2
      rw [(hcp e hb.2.1).1 h1, (hcp e' hb'.2.1).1 h2, peak_first_eq, h.rowRate_bin D hb, h.rowRate_bin D hb',
        h.end_one hb'] at this
      push_cast at this
      linarith
    · intro s e s' e' hb hb' hlt h1 h2
      have := (hc.2 e' (by omega) hb'.2.1 e hlt).1
      rw [(hcp e hb.2.1).2 h1, (hcp e' hb'.2.1).2 h2, peak_first_eq, h.rowRate_bin D hb, h.rowRate_bin D hb',
        h.end_one hb] at this
      push_cast at this
      linarith
  | valley =>
    simp only [ht] at hc
    obtain ⟨hy1, ht0, htn⟩ := hy (Or.inr ht)
    obtain ⟨c, hcp⟩ := change_cases hy1 ht0 htn hc.1
    refine ⟨c, ?_, ?_⟩
    · intro s e s' e' hb hb' hlt h1 h2
      have := (hc.2 e' (by omega) hb'.2.1 e hlt).2
      rw [(hcp e hb.2.1).1 h1, (hcp e' hb'.2.1).1 h2, peak_first_eq, h.rowRate_bin D hb, h.rowRate_bin D hb',
        h.end_one hb] at this
      push_cast at this
      linarith
    · intro s e s' e' hb hb' hlt h1 h2
      have := (hc.2 e' (by omega) hb'.2.1 e hlt).1
      rw [(hcp e hb.2.1).2 h1, (hcp e' hb'.2.1).2 h2, peak_first_eq, h.rowRate_bin D hb, h.rowRate_bin D hb',
        h.end_one hb'] at this
      push_cast at this
      linarith
  | peakHeuristic tc =>
    simp only [ht] at hc
    obtain ⟨h1, -, h2, -⟩ := hc
    refine ⟨?_, ?_⟩
    · intro s e s' e' hb hb' hlt hp hp'
      exact asc_sound h hb hb' (h1 e' (by omega) hp' e hlt)
    · intro s e s' e' hb hb' hlt hp hp'
      exact desc_sound h hb hb' (h2 e' hp' hb'.2.1 e hp hlt)
  | valleyHeuristic tc =>
    simp only [ht] at hc
    obtain ⟨h1, -, h2, -⟩ := hc
    refine ⟨?_, ?_⟩
    · intro s e s' e' hb hb' hlt hp hp'
      exact desc_sound h hb hb' (h1 e' (by omega) hp' e hlt)
    · intro s e s' e' hb hb' hlt hp hp'
      exact asc_sound h hb hb' (h2 e' hp' hb'.2.1 e hp hlt)

/-- Trends whose big-M formulation is exact. -/
def ExactTrend : Trend → Prop
  | .concave => False
  | .convex => False
  | _ => True

/-- Change-point witness. -/
def yWit (c : ℕ) (i : ℕ) : ℤ := if i < c then 1 else 0

theorem changePoint_wit {n c : ℕ} (hc : c ≤ n) : changePoint n (yWit c) c := by
  intro i hi
  unfold yWit
  split_ifs with h <;> constructor <;> simp <;> omega

/-- Every binning with the requested trend is accepted by the trend constraints, unless preprocessing cuts are active or
the trend is concave/convex. -/
theorem trend_complete {o : Opts} {n : ℕ} {x : ℕ → ℕ → ℤ} (h : Core n x) {M : R} (hM : 0 ≤ M) {D : ℕ → ℕ → R}
    (hD : ∀ i < n, ∀ j ≤ i, 0 ≤ D i j ∧ D i j ≤ M) (hcut : ¬ cutsOn o) (hex : ExactTrend o.trend)
    (htc : ∀ tc, o.trend = .peakHeuristic tc ∨ o.trend = .valleyHeuristic tc → tc ≤ n)
    (hT : TrendHolds n (diag x) (fun s e => D e s) o.trend) :
    ∃ (y : ℕ → ℤ) (t : ℤ), (∀ i < n, y i = 0 ∨ y i = 1) ∧ 0 ≤ t ∧ t ≤ n ∧
      ∀ d u pmax pmin, monotonicity o M n D { x := x, y := y, t := t, d := d, u := u, pmax := pmax, pmin := pmin } := by
  have triv : ∃ (y : ℕ → ℤ) (t : ℤ), (∀ i < n, y i = 0 ∨ y i = 1) ∧ 0 ≤ t ∧ t ≤ n ∧ (y, t) = (fun _ => 0, 0) :=
    ⟨fun _ => 0, 0, by simp, le_rfl, by omega, rfl⟩
  cases ht : o.trend with
  | unconstrained =>
    obtain ⟨y, t, h1, h2, h3, -⟩ := triv
    refine ⟨y, t, h1, h2, h3, fun _ _ _ _ => ?_⟩
    simp [monotonicity, ht]
  | ascending =>
    obtain ⟨y, t, h1, h2, h3, -⟩ := triv
    refine ⟨y, t, h1, h2, h3, fun _ _ _ _ => ?_⟩
    simp only [monotonicity, ht]
    rw [ht] at hT
    refine ⟨fun i hi1 hi2 z hz => asc_complete h hM hD (by omega) hi2 ?_, fun hc => absurd hc hcut⟩
    intro s s' hb hb'
    exact hT s z s' i hb hb' hz trivial trivial
  | descending =>
    obtain ⟨y, t, h1, h2, h3, -⟩ := triv
    refine ⟨y, t, h1, h2, h3, fun _ _ _ _ => ?_⟩
    simp only [monotonicity, ht]
    rw [ht] at hT
    refine ⟨fun i hi1 hi2 z hz => desc_complete h hM hD (by omega) hi2 ?_, fun hc => absurd hc hcut⟩
    intro s s' hb hb'
    exact hT s z s' i hb hb' hz trivial trivial
  | concave => rw [ht] at hex; exact hex.elim
  | convex => rw [ht] at hex; exact hex.elim
  | peak =>
    rw [ht] at hT
    obtain ⟨c, ha, hd⟩ := hT
    refine ⟨yWit (min c n), (min c n : ℕ), fun i _ => by unfold yWit; split_ifs <;> simp, by omega, by omega,
      fun _ _ _ _ => ?_⟩
    simp only [monotonicity, ht]
    refine ⟨changePoint_wit (by omega), ?_⟩
    intro i hi1 hi2 z hz
    have bz := h.rate_bounds hM hD (show z < n by omega)
    have bi := h.rate_bounds hM hD hi2
    have e1 : yWit (min c n) i = if i < c then 1 else 0 := by unfold yWit; congr 1; simp; omega
    have e2 : yWit (min c n) z = if z < c then 1 else 0 := by unfold yWit; congr 1; simp; omega
    simp only [e1, e2]
    rw [peak_first_eq, peak_first_eq]
    constructor
    · rcases h.one_or (show z < n by omega) with h0 | ⟨hz1, s, hb⟩
      · rw [h0]
        split_ifs <;> push_cast <;> linarith
      · rw [hz1]
        rcases h.one_or hi2 with h0 | ⟨hi1', s', hb'⟩
        · rw [h.rowRate_none D hi2 h0]
          split_ifs <;> push_cast <;> linarith
        · by_cases hzc : z < c
          · simp only [hzc, if_true]
            split_ifs <;> push_cast <;> linarith
          · have := hd s z s' i hb hb' hz (by omega) (by omega)
            rw [h.rowRate_bin D hb, h.rowRate_bin D hb']
            rw [if_neg hzc, if_neg (by omega)]
            push_cast; linarith
    · rcases h.one_or hi2 with h0 | ⟨hi1', s', hb'⟩
      · rw [h0]
        split_ifs <;> push_cast <;> linarith
      · rw [hi1']
        rcases h.one_or (show z < n by omega) with h0 | ⟨hz1, s, hb⟩
        · rw [h.rowRate_none D (by omega) h0]
          split_ifs <;> push_cast <;> linarith
        · by_cases hic : i < c
          · have := ha s z s' i hb hb' hz (by omega) (by omega)
            rw [h.rowRate_bin D hb, h.rowRate_bin D hb']
            rw [if_pos hic, if_pos (by omega)]
            push_cast; linarith
          · simp only [hic, if_false]
            split_ifs <;> push_cast <;> linarith
  | valley =>
    rw [ht] at hT
    obtain ⟨c, ha, hd⟩ := hT
    refine ⟨yWit (min c n), (min c n : ℕ), fun i _ => by unfold yWit; split_ifs <;> simp, by omega, by omega,
      fun _ _ _ _ => ?_⟩
    simp only [monotonicity, ht]
    refine ⟨changePoint_wit (by omega), ?_⟩
    intro i hi1 hi2 z hz
    have bz := h.rate_bounds hM hD (show z < n by omega)
    have bi := h.rate_bounds hM hD hi2
    have e1 : yWit (min c n) i = if i < c then 1 else 0 := by unfold yWit; congr 1; simp; omega
    have e2 : yWit (min c n) z = if z < c then 1 else 0 := by unfold yWit; congr 1; simp; omega
    simp only [e1, e2]
    rw [peak_first_eq, peak_first_eq]
    constructor
    · rcases h.one_or hi2 with h0 | ⟨hi1', s', hb'⟩
      · rw [h0]
        split_ifs <;> push_cast <;> linarith
      · rw [hi1']
        rcases h.one_or (show z < n by omega) with h0 | ⟨hz1, s, hb⟩
        · rw [h.rowRate_none D (by omega) h0]
          split_ifs <;> push_cast <;> linarith
        · by_cases hzc : z < c
          · simp only [hzc, if_true]
            split_ifs <;> push_cast <;> linarith
          · have := hd s z s' i hb hb' hz (by omega) (by omega)
            rw [h.rowRate_bin D hb, h.rowRate_bin D hb']
            rw [if_neg hzc, if_neg (by omega)]
            push_cast; linarith
    · rcases h.one_or (show z < n by omega) with h0 | ⟨hz1, s, hb⟩
      · rw [h0]
        split_ifs <;> push_cast <;> linarith
      · rw [hz1]
        rcases h.one_or hi2 with h0 | ⟨hi1', s', hb'⟩
        · rw [h.rowRate_none D hi2 h0]
          split_ifs <;> push_cast <;> linarith
        · by_cases hic : i < c
          · have := ha s z s' i hb hb' hz (by omega) (by omega)
            rw [h.rowRate_bin D hb, h.rowRate_bin D hb']
            rw [if_pos hic, if_pos (by omega)]
            push_cast; linarith
          · simp only [hic, if_false]
            split_ifs <;> push_cast <;> linarith
  | peakHeuristic tc =>
    obtain ⟨y, t, h1, h2, h3, -⟩ := triv
    refine ⟨y, t, h1, h2, h3, fun _ _ _ _ => ?_⟩
    simp only [monotonicity, ht]
    rw [ht] at hT
    have htcn := htc tc (Or.inl ht)
    refine ⟨fun i hi1 hi2 z hz => ?_, fun hc => absurd hc hcut, fun i hi1 hi2 z hz1 hz2 => ?_,
      fun hc => absurd hc hcut⟩
    · exact asc_complete h hM hD (by omega) (by omega) fun s s' hb hb' => hT.1 s z s' i hb hb' hz (by omega) hi2
    · exact desc_complete h hM hD (by omega) hi2 fun s s' hb hb' => hT.2 s z s' i hb hb' hz2 hz1 hi1
  | valleyHeuristic tc =>
    obtain ⟨y, t, h1, h2, h3, -⟩ := triv
    refine ⟨y, t, h1, h2, h3, fun _ _ _ _ => ?_⟩
    simp only [monotonicity, ht]
    rw [ht] at hT
    have htcn := htc tc (Or.inr ht)
    refine ⟨fun i hi1 hi2 z hz => ?_, fun hc => absurd hc hcut, fun i hi1 hi2 z hz1 hz2 => ?_,
      fun hc => absurd hc hcut⟩
    · exact desc_complete h hM hD (by omega) (by omega) fun s s' hb hb' => hT.1 s z s' i hb hb' hz (by omega) hi2
    · exact asc_complete h hM hD (by omega) hi2 fun s s' hb hb' => hT.2 s z s' i hb hb' hz2 hz1 hi1

/-! ### violations -/

theorem Core.isBin_iff {n : ℕ} {x : ℕ → ℕ → ℤ} (h : Core n x) {j i : ℕ} (hji : j ≤ i) (hi : i < n) :
    IsBin n (diag x) j i ↔ x i j = 1 ∧ (1 ≤ j → x i (j - 1) = 0) := by
  constructor
  · intro hb
    refine ⟨by rw [h.row_bin hb hji, if_pos le_rfl], fun hj => ?_⟩
    rw [h.row_bin hb (by omega), if_neg (by omega)]
  · rintro ⟨h1, h2⟩
    have hii := h.row_mono hi h1 hji le_rfl
    obtain ⟨s, hb⟩ := exists_start n (diag x) hi ((diag_eq_true h hi).2 hii)
    have e1 := h.row_bin hb hji
    have hsj : s ≤ j := by
      by_contra hc
      rw [if_neg hc] at e1; omega
    have : s = j := by
      by_contra hne
      have e2 := h.row_bin hb (show j - 1 ≤ i by omega)
      rw [h2 (by omega), if_pos (by omega)] at e2
      omega
    rwa [← this]

/-- Well-formed pairs: two bins, the first entirely before the second. -/
def WfViol (n : ℕ) (v : Violation) : Prop := v.1.2 ≤ v.1.1 ∧ v.1.1 < v.2.2 ∧ v.2.2 ≤ v.2.1 ∧ v.2.1 < n

theorem violationCP_iff {n : ℕ} {x : ℕ → ℕ → ℤ} (h : Core n x) {vs : List Violation} (hw : ∀ v ∈ vs, WfViol n v) :
    violationCP x vs ↔ ∀ v ∈ vs, ¬ (IsBin n (diag x) v.1.2 v.1.1 ∧ IsBin n (diag x) v.2.2 v.2.1) := by
  unfold violationCP
  refine forall₂_congr fun v hv => ?_
  obtain ⟨⟨i, j⟩, ⟨z, l⟩⟩ := v
  obtain ⟨h1, h2, h3, h4⟩ := hw _ hv
  simp only at h1 h2 h3 h4 ⊢
  rw [h.isBin_iff h1 (by omega), h.isBin_iff h3 h4]
  have b1 := h.bool z h4 l h3
  have hl : 1 ≤ l := by omega
  split_ifs with hj
  · constructor
    · rintro hc ⟨⟨a1, a2⟩, a3, a4⟩
      have := hc ⟨a2 hj, a4 hl⟩ a1; omega
    · intro hc h5 h6
      rcases b1 with b | b
      · exact b
      · exact absurd ⟨⟨h6, fun _ => h5.1⟩, b, fun _ => h5.2⟩ hc
  · constructor
    · rintro hc ⟨⟨a1, a2⟩, a3, a4⟩
      have := hc (a4 hl) a1; omega
    · intro hc h5 h6
      rcases b1 with b | b
      · exact b
      · exact absurd ⟨⟨h6, fun hh => absurd hh hj⟩, b, fun _ => h5⟩ hc

theorem violationMIP_iff {n : ℕ} {x : ℕ → ℕ → ℤ} (h : Core n x) {vs : List Violation} (hw : ∀ v ∈ vs, WfViol n v) :
    violationMIP x vs ↔ ∀ v ∈ vs, ¬ (IsBin n (diag x) v.1.2 v.1.1 ∧ IsBin n (diag x) v.2.2 v.2.1) := by
  unfold violationMIP
  refine forall₂_congr fun v hv => ?_
  obtain ⟨⟨i, j⟩, ⟨z, l⟩⟩ := v
  obtain ⟨h1, h2, h3, h4⟩ := hw _ hv
  simp only at h1 h2 h3 h4 ⊢
  rw [h.isBin_iff h1 (by omega), h.isBin_iff h3 h4]
  have b1 := h.bool z h4 l h3
  have b2 := h.bool z h4 (l - 1) (by omega)
  have b3 := h.bool i (by omega) j h1
  have b4 := h.bool i (by omega) (j - 1) (by omega)
  have hl : 1 ≤ l := by omega
  split_ifs with hj
  · simp only [hj, hl, forall_const]
    omega
  · have hj0 : j = 0 := by omega
    subst hj0
    simp only [hl, forall_const]
    omega

end OptBinning
