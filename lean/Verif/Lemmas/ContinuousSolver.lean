import Verif.Model.ContinuousSolver
import Verif.Lemmas.Refine

/-! Lemmas on the CP formulation for a continuous target. -/
namespace OptBinning
open Finset Spec

/-- The records per pre-bin as a function. -/
def ContInput.recs (inp : ContInput) : ℕ → ℤ := fun k => ((inp.records.getD k 0 : ℕ) : ℤ)
/-- The target sums per pre-bin as a function. -/
def ContInput.sum (inp : ContInput) : ℕ → ℚ := fun k => inp.sums.getD k 0
/-- The sums of squares per pre-bin as a function. -/
def ContInput.ssum (inp : ContInput) : ℕ → ℚ := fun k => inp.ssums.getD k 0

/-- Well-formed input: the three columns have the same positive length, no pre-bin is empty. -/
structure ContInput.Wf (inp : ContInput) : Prop where
  lenS : inp.sums.length = inp.records.length
  lenQ : inp.ssums.length = inp.records.length
  pos : 0 < inp.records.length
  nonempty : ∀ c ∈ inp.records, 0 < c

theorem contRecords (inp : ContInput) {i j : ℕ} (hi : i < inp.n) (hj : j ≤ i) :
    ((cumAt inp.records i j : ℕ) : ℤ) = binTotal inp.recs j i := by
  rw [cumAt_eq _ hi hj]
  unfold binTotal ContInput.recs
  push_cast
  rfl

theorem contMean_eq (inp : ContInput) (hw : inp.Wf) {i j : ℕ} (hi : i < inp.n) (hj : j ≤ i) :
    inp.mean i j = binMean inp.recs inp.sum j i := by
  unfold ContInput.mean binMean
  rw [← contRecords inp hi hj, cumAt_eq inp.sums (by rw [hw.lenS]; exact hi) hj]
  push_cast
  rfl

theorem cont_total_records (inp : ContInput) (hw : inp.Wf) :
    ((inp.records.sum : ℕ) : ℤ) = binTotal inp.recs 0 (inp.n - 1) := by
  have h := cumAt_eq inp.records (i := inp.n - 1) (j := 0) (by have := hw.pos; unfold ContInput.n; omega) (by omega)
  rw [list_sum_eq_range]
  unfold binTotal ContInput.recs
  push_cast
  apply Finset.sum_congr _ (fun _ _ => rfl)
  ext k
  have := hw.pos
  unfold ContInput.n
  simp only [mem_range, mem_Icc]
  omega

theorem cont_total_sums (inp : ContInput) (hw : inp.Wf) : inp.sums.sum = binTotal inp.sum 0 (inp.n - 1) := by
  rw [list_sum_eq_range]
  unfold binTotal ContInput.sum
  apply Finset.sum_congr _ (fun _ _ => rfl)
  ext k
  have := hw.pos
  have := hw.lenS
  unfold ContInput.n
  simp only [mem_range, mem_Icc]
  omega

theorem contTMean_eq (inp : ContInput) (hw : inp.Wf) : inp.tMean = binMean inp.recs inp.sum 0 (inp.n - 1) := by
  unfold ContInput.tMean binMean
  rw [← cont_total_records inp hw, ← cont_total_sums inp hw, Int.cast_natCast]

/-! ### trends -/

theorem ascEnforced_iff {n : ℕ} {x : ℕ → ℕ → ℤ} (h : Core n x) {U : ℕ → ℕ → ℤ} {z i : ℕ} (hz : z < n) (hi : i < n) :
    ascEnforced U x z i ↔ ∀ s s', IsBin n (diag x) s z → IsBin n (diag x) s' i → U z s ≤ U i s' := by
  have e : rowS U x z + U z z * x z z - U i i * x i i - rowS U x i = rowRate U x z - rowRate U x i := by
    unfold rowRate; push_cast; ring
  unfold ascEnforced
  rw [e]
  constructor
  · intro hc s s' hb hb'
    have := hc (h.end_one hb) (h.end_one hb')
    rw [h.rowRate_bin U hb, h.rowRate_bin U hb'] at this
    omega
  · intro hc h1 h2
    obtain ⟨s, hb⟩ := exists_start n (diag x) hz ((diag_eq_true h hz).2 h1)
    obtain ⟨s', hb'⟩ := exists_start n (diag x) hi ((diag_eq_true h hi).2 h2)
    rw [h.rowRate_bin U hb, h.rowRate_bin U hb']
    have := hc s s' hb hb'
    omega

theorem descEnforced_iff {n : ℕ} {x : ℕ → ℕ → ℤ} (h : Core n x) {U : ℕ → ℕ → ℤ} {z i : ℕ} (hz : z < n) (hi : i < n) :
    descEnforced U x z i ↔ ∀ s s', IsBin n (diag x) s z → IsBin n (diag x) s' i → U i s' ≤ U z s := by
  have e : rowS U x i + U i i * x i i - U z z * x z z - rowS U x z = rowRate U x i - rowRate U x z := by
    unfold rowRate; push_cast; ring
  unfold descEnforced
  rw [e]
  constructor
  · intro hc s s' hb hb'
    have := hc (h.end_one hb) (h.end_one hb')
    rw [h.rowRate_bin U hb, h.rowRate_bin U hb'] at this
    omega
  · intro hc h1 h2
    obtain ⟨s, hb⟩ := exists_start n (diag x) hz ((diag_eq_true h hz).2 h1)
    obtain ⟨s', hb'⟩ := exists_start n (diag x) hi ((diag_eq_true h hi).2 h2)
    rw [h.rowRate_bin U hb, h.rowRate_bin U hb']
    have := hc s s' hb hb'
    omega

theorem asc_range_iff {n : ℕ} {x : ℕ → ℕ → ℤ} (h : Core n x) {U : ℕ → ℕ → ℤ} (lo hi : ℕ) (hhi : hi ≤ n) :
    (∀ i, lo ≤ i → i < hi → ∀ z, lo ≤ z → z < i → ascEnforced U x z i) ↔
      AscendingOn n (diag x) (fun s e => U e s) (fun e => lo ≤ e ∧ e < hi) := by
  constructor
  · intro hc s e s' e' hb hb' hlt hp hp'
    exact (ascEnforced_iff h hb.2.1 hb'.2.1).1 (hc e' hp'.1 hp'.2 e hp.1 hlt) s s' hb hb'
  · intro hc i h1 h2 z h3 h4
    rw [ascEnforced_iff h (by omega) (by omega)]
    intro s s' hb hb'
    exact hc s z s' i hb hb' h4 ⟨h3, by omega⟩ ⟨h1, h2⟩

theorem desc_range_iff {n : ℕ} {x : ℕ → ℕ → ℤ} (h : Core n x) {U : ℕ → ℕ → ℤ} (lo hi : ℕ) (hhi : hi ≤ n) :
    (∀ i, lo ≤ i → i < hi → ∀ z, lo ≤ z → z < i → descEnforced U x z i) ↔
      DescendingOn n (diag x) (fun s e => U e s) (fun e => lo ≤ e ∧ e < hi) := by
  constructor
  · intro hc s e s' e' hb hb' hlt hp hp'
    exact (descEnforced_iff h hb.2.1 hb'.2.1).1 (hc e' hp'.1 hp'.2 e hp.1 hlt) s s' hb hb'
  · intro hc i h1 h2 z h3 h4
    rw [descEnforced_iff h (by omega) (by omega)]
    intro s s' hb hb'
    exact hc s z s' i hb hb' h4 ⟨h3, by omega⟩ ⟨h1, h2⟩

theorem ascendingOn_congr {R : Type*} [CommRing R] [LinearOrder R] {n : ℕ} {sol : ℕ → Bool} {r : ℕ → ℕ → R} {P Q : ℕ → Prop}
    (h : ∀ e < n, P e ↔ Q e) : AscendingOn n sol r P ↔ AscendingOn n sol r Q := by
  constructor <;> intro hc s e s' e' hb hb' hlt h1 h2
  · exact hc s e s' e' hb hb' hlt ((h e hb.2.1).2 h1) ((h e' hb'.2.1).2 h2)
  · exact hc s e s' e' hb hb' hlt ((h e hb.2.1).1 h1) ((h e' hb'.2.1).1 h2)

theorem descendingOn_congr {R : Type*} [CommRing R] [LinearOrder R] {n : ℕ} {sol : ℕ → Bool} {r : ℕ → ℕ → R} {P Q : ℕ → Prop}
    (h : ∀ e < n, P e ↔ Q e) : DescendingOn n sol r P ↔ DescendingOn n sol r Q := by
  constructor <;> intro hc s e s' e' hb hb' hlt h1 h2
  · exact hc s e s' e' hb hb' hlt ((h e hb.2.1).2 h1) ((h e' hb'.2.1).2 h2)
  · exact hc s e s' e' hb hb' hlt ((h e hb.2.1).1 h1) ((h e' hb'.2.1).1 h2)

/-- The trends whose constraints do not use the change point variables. -/
def Trend.fixedShape : Trend → Prop
  | .peak => False
  | .valley => False
  | _ => True

theorem contMono_iff {n : ℕ} {a : Assign} (h : Core n a.x) {U : ℕ → ℕ → ℤ} {t : Trend} (ht : t.fixedShape)
    (htc : ∀ tc, t = .peakHeuristic tc ∨ t = .valleyHeuristic tc → tc ≤ n) :
    contMonotonicity t n U a ↔ TrendHolds n (diag a.x) (fun s e => U e s) t := by
  have ex : ∀ {i}, i < n → a.x i i = 1 → ∃ s, IsBin n (diag a.x) s i :=
    fun hi h1 => exists_start n (diag a.x) hi ((diag_eq_true h hi).2 h1)
  cases t with
  | unconstrained => exact Iff.rfl
  | ascending =>
    refine Iff.trans ?_ ((asc_range_iff h 0 n le_rfl).trans (ascendingOn_congr fun e he => ?_))
    · constructor
      · intro hc i _ h2 z _ h4; exact hc i (by omega) h2 z h4
      · intro hc i _ h2 z h4; exact hc i (by omega) h2 z (by omega) h4
    · simp [he]
  | descending =>
    refine Iff.trans ?_ ((desc_range_iff h 0 n le_rfl).trans (descendingOn_congr fun e he => ?_))
    · constructor
      · intro hc i _ h2 z _ h4; exact hc i (by omega) h2 z h4
      · intro hc i _ h2 z h4; exact hc i (by omega) h2 z (by omega) h4
    · simp [he]
  | concave =>
    constructor
    · intro hc s₁ e₁ s₂ e₂ s₃ e₃ h1 h2 h3 h12 h23
      have := hc e₃ (by omega) h3.2.1 e₂ (by omega) h23 e₁ h12 (h.end_one h1) (h.end_one h2) (h.end_one h3)
      rw [h.rowRate_bin U h1, h.rowRate_bin U h2, h.rowRate_bin U h3] at this
      simp only
      omega
    · intro hc i _ hi j _ hj k hk xk xj xi
      obtain ⟨s₁, h1⟩ := ex (show k < n by omega) xk
      obtain ⟨s₂, h2⟩ := ex (show j < n by omega) xj
      obtain ⟨s₃, h3⟩ := ex hi xi
      rw [h.rowRate_bin U h1, h.rowRate_bin U h2, h.rowRate_bin U h3]
      have := hc s₁ k s₂ j s₃ i h1 h2 h3 hk hj
      simp only at this
      omega
  | convex =>
    constructor
    · intro hc s₁ e₁ s₂ e₂ s₃ e₃ h1 h2 h3 h12 h23
      have := hc e₃ (by omega) h3.2.1 e₂ (by omega) h23 e₁ h12 (h.end_one h1) (h.end_one h2) (h.end_one h3)
      rw [h.rowRate_bin U h1, h.rowRate_bin U h2, h.rowRate_bin U h3] at this
      simp only
      omega
    · intro hc i _ hi j _ hj k hk xk xj xi
      obtain ⟨s₁, h1⟩ := ex (show k < n by omega) xk
      obtain ⟨s₂, h2⟩ := ex (show j < n by omega) xj
      obtain ⟨s₃, h3⟩ := ex hi xi
      rw [h.rowRate_bin U h1, h.rowRate_bin U h2, h.rowRate_bin U h3]
      have := hc s₁ k s₂ j s₃ i h1 h2 h3 hk hj
      simp only at this
      omega
  | peak => exact ht.elim
  | valley => exact ht.elim
  | peakHeuristic tc =>
    have htn := htc tc (Or.inl rfl)
    refine and_congr (Iff.trans ?_ ((asc_range_iff h 0 tc htn).trans (ascendingOn_congr fun e he => ?_)))
      (Iff.trans ?_ ((desc_range_iff h tc n le_rfl).trans (descendingOn_congr fun e he => ?_)))
    · constructor
      · intro hc i _ h2 z _ h4; exact hc i (by omega) h2 z h4
      · intro hc i _ h2 z h4; exact hc i (by omega) h2 z (by omega) h4
    · simp
    · exact Iff.rfl
    · simp [he]
  | valleyHeuristic tc =>
    have htn := htc tc (Or.inr rfl)
    refine and_congr (Iff.trans ?_ ((desc_range_iff h 0 tc htn).trans (descendingOn_congr fun e he => ?_)))
      (Iff.trans ?_ ((asc_range_iff h tc n le_rfl).trans (ascendingOn_congr fun e he => ?_)))
    · constructor
      · intro hc i _ h2 z _ h4; exact hc i (by omega) h2 z h4
      · intro hc i _ h2 z h4; exact hc i (by omega) h2 z (by omega) h4
    · simp
    · exact Iff.rfl
    · simp [he]

theorem foldl_max_le (l : List ℤ) (a : ℤ) : a ≤ l.foldl max a ∧ ∀ b ∈ l, b ≤ l.foldl max a := by
  induction l generalizing a with
  | nil => simp
  | cons c l ih =>
    simp only [List.foldl_cons, List.mem_cons, forall_eq_or_imp]
    have h1 := ih (max a c)
    exact ⟨le_trans (le_max_left _ _) h1.1, le_trans (le_max_right _ _) h1.1, h1.2⟩

theorem le_contBigM {n : ℕ} {U : ℕ → ℕ → ℤ} {i j : ℕ} (hi : i < n) (hj : j ≤ i) : |U i j| ≤ contBigM n U := by
  apply (foldl_max_le _ 0).2
  simp only [List.mem_flatMap, List.mem_range, List.mem_map]
  exact ⟨i, hi, j, by omega, rfl⟩

theorem cont_peak_eq (M : ℤ) (U : ℕ → ℕ → ℤ) (x : ℕ → ℕ → ℤ) (z i : ℕ) (c : ℤ) :
    M * c + U z z * x z z + rowS U x z - rowS U x i - U i i * x i i = M * c + rowRate U x z - rowRate U x i := by
  unfold rowRate; push_cast; ring

/-- Every accepted assignment satisfies the requested trend. -/
theorem contMono_sound {n : ℕ} {a : Assign} (h : Core n a.x) {U : ℕ → ℕ → ℤ} {t : Trend}
    (hy : (t = .peak ∨ t = .valley) → (∀ i < n, a.y i = 0 ∨ a.y i = 1) ∧ 0 ≤ a.t ∧ a.t ≤ n)
    (htc : ∀ tc, t = .peakHeuristic tc ∨ t = .valleyHeuristic tc → tc ≤ n)
    (hc : contMonotonicity t n U a) : TrendHolds n (diag a.x) (fun s e => U e s) t := by
  cases t with
  | peak =>
    obtain ⟨hy1, ht0, htn⟩ := hy (Or.inl rfl)
    obtain ⟨c, hcp⟩ := change_cases hy1 ht0 htn hc.1
    refine ⟨c, ?_, ?_⟩
    · intro s e s' e' hb hb' hlt h1 h2
      have := (hc.2 e' (by omega) hb'.2.1 e hlt (h.end_one hb) (h.end_one hb')).2
      rw [(hcp e hb.2.1).1 h1, (hcp e' hb'.2.1).1 h2, cont_peak_eq, h.rowRate_bin U hb, h.rowRate_bin U hb'] at this
      simp only
      omega
    · intro s e s' e' hb hb' hlt h1 h2
      have := (hc.2 e' (by omega) hb'.2.1 e hlt (h.end_one hb) (h.end_one hb')).1
      rw [(hcp e hb.2.1).2 h1, (hcp e' hb'.2.1).2 h2, cont_peak_eq, h.rowRate_bin U hb, h.rowRate_bin U hb'] at this
      simp only
      omega
  | valley =>
    obtain ⟨hy1, ht0, htn⟩ := hy (Or.inr rfl)
    obtain ⟨c, hcp⟩ := change_cases hy1 ht0 htn hc.1
    refine ⟨c, ?_, ?_⟩
    · intro s e s' e' hb hb' hlt h1 h2
      have := (hc.2 e' (by omega) hb'.2.1 e hlt (h.end_one hb) (h.end_one hb')).2
      rw [(hcp e hb.2.1).1 h1, (hcp e' hb'.2.1).1 h2, cont_peak_eq, h.rowRate_bin U hb, h.rowRate_bin U hb'] at this
      simp only
      omega
    · intro s e s' e' hb hb' hlt h1 h2
      have := (hc.2 e' (by omega) hb'.2.1 e hlt (h.end_one hb) (h.end_one hb')).1
      rw [(hcp e hb.2.1).2 h1, (hcp e' hb'.2.1).2 h2, cont_peak_eq, h.rowRate_bin U hb, h.rowRate_bin U hb'] at this
      simp only
      omega
  | unconstrained => exact (contMono_iff h (t := .unconstrained) trivial htc).1 hc
  | ascending => exact (contMono_iff h (t := .ascending) trivial htc).1 hc
  | descending => exact (contMono_iff h (t := .descending) trivial htc).1 hc
  | concave => exact (contMono_iff h (t := .concave) trivial htc).1 hc
  | convex => exact (contMono_iff h (t := .convex) trivial htc).1 hc
  | peakHeuristic tc => exact (contMono_iff h (t := .peakHeuristic tc) trivial htc).1 hc
  | valleyHeuristic tc => exact (contMono_iff h (t := .valleyHeuristic tc) trivial htc).1 hc

/-- The big-M condition: all entries of `U` have the same sign. -/
def SameSign (n : ℕ) (U : ℕ → ℕ → ℤ) : Prop :=
  (∀ i < n, ∀ j ≤ i, 0 ≤ U i j) ∨ (∀ i < n, ∀ j ≤ i, U i j ≤ 0)

theorem sameSign_diff {n : ℕ} {U : ℕ → ℕ → ℤ} (h : SameSign n U) {i j k l : ℕ} (hi : i < n) (hj : j ≤ i) (hk : k < n)
    (hl : l ≤ k) : U i j - U k l ≤ contBigM n U := by
  have h1 := abs_le.1 (le_contBigM (U := U) hi hj)
  have h2 := abs_le.1 (le_contBigM (U := U) hk hl)
  rcases h with h | h
  · have := h k hk l hl; omega
  · have := h i hi j hj; omega

/-- Every binning with the requested trend is accepted, for peak and valley if the means have one sign. -/
theorem contMono_complete {n : ℕ} {x : ℕ → ℕ → ℤ} (h : Core n x) {U : ℕ → ℕ → ℤ} {t : Trend}
    (hs : t.fixedShape ∨ SameSign n U)
    (htc : ∀ tc, t = .peakHeuristic tc ∨ t = .valleyHeuristic tc → tc ≤ n)
    (hT : TrendHolds n (diag x) (fun s e => U e s) t) :
    ∃ (y : ℕ → ℤ) (T : ℤ), (∀ i < n, y i = 0 ∨ y i = 1) ∧ 0 ≤ T ∧ T ≤ n ∧
      ∀ a : Assign, a.x = x → a.y = y → a.t = T → contMonotonicity t n U a := by
  have triv : t.fixedShape → ∃ (y : ℕ → ℤ) (T : ℤ), (∀ i < n, y i = 0 ∨ y i = 1) ∧ 0 ≤ T ∧ T ≤ n ∧
      ∀ a : Assign, a.x = x → a.y = y → a.t = T → contMonotonicity t n U a := by
    intro hf
    refine ⟨fun _ => 0, 0, fun _ _ => Or.inl rfl, le_rfl, by omega, fun a hx _ _ => ?_⟩
    subst hx
    exact (contMono_iff h hf htc).2 hT
  by_cases hf : t.fixedShape
  · exact triv hf
  · have hss : SameSign n U := hs.resolve_left hf
    have hM0 : 0 ≤ contBigM n U := (foldl_max_le _ 0).1
    cases t with
    | peak =>
      obtain ⟨c, ha, hd⟩ := hT
      refine ⟨yWit (min c n), (min c n : ℕ), fun i _ => by unfold yWit; split_ifs <;> simp, by omega, by omega,
        fun a hx hy ht => ?_⟩
      refine ⟨by rw [hy, ht]; exact changePoint_wit (by omega), ?_⟩
      intro i _ hi z hz xz xi
      rw [hx] at xz xi
      obtain ⟨s, hb⟩ := exists_start n (diag x) (show z < n by omega) ((diag_eq_true h (by omega)).2 xz)
      obtain ⟨s', hb'⟩ := exists_start n (diag x) hi ((diag_eq_true h hi).2 xi)
      rw [cont_peak_eq, cont_peak_eq, hx, h.rowRate_bin U hb, h.rowRate_bin U hb', hy]
      have e1 : yWit (min c n) i = if i < c then 1 else 0 := by unfold yWit; congr 1; simp; omega
      have e2 : yWit (min c n) z = if z < c then 1 else 0 := by unfold yWit; congr 1; simp; omega
      have d1 := sameSign_diff hss hi hb'.1 (show z < n by omega) hb.1
      have d2 := sameSign_diff hss (show z < n by omega) hb.1 hi hb'.1
      rw [e1, e2]
      by_cases hzc : z < c
      · by_cases hic : i < c
        · have := ha s z s' i hb hb' hz hzc hic
          simp only at this
          simp only [hzc, hic, if_true]
          constructor <;> omega
        · simp only [hzc, hic, if_true, if_false]
          constructor <;> omega
      · have hic : ¬ i < c := by omega
        have := hd s z s' i hb hb' hz (by omega) (by omega)
        simp only at this
        simp only [hzc, hic, if_false]
        constructor <;> omega
    | valley =>
      obtain ⟨c, ha, hd⟩ := hT
      refine ⟨yWit (min c n), (min c n : ℕ), fun i _ => by unfold yWit; split_ifs <;> simp, by omega, by omega,
        fun a hx hy ht => ?_⟩
      refine ⟨by rw [hy, ht]; exact changePoint_wit (by omega), ?_⟩
      intro i _ hi z hz xz xi
      rw [hx] at xz xi
      obtain ⟨s, hb⟩ := exists_start n (diag x) (show z < n by omega) ((diag_eq_true h (by omega)).2 xz)
      obtain ⟨s', hb'⟩ := exists_start n (diag x) hi ((diag_eq_true h hi).2 xi)
      rw [cont_peak_eq, cont_peak_eq, hx, h.rowRate_bin U hb, h.rowRate_bin U hb', hy]
      have e1 : yWit (min c n) i = if i < c then 1 else 0 := by unfold yWit; congr 1; simp; omega
      have e2 : yWit (min c n) z = if z < c then 1 else 0 := by unfold yWit; congr 1; simp; omega
      have d1 := sameSign_diff hss hi hb'.1 (show z < n by omega) hb.1
      have d2 := sameSign_diff hss (show z < n by omega) hb.1 hi hb'.1
      rw [e1, e2]
      by_cases hzc : z < c
      · by_cases hic : i < c
        · have := ha s z s' i hb hb' hz hzc hic
          simp only at this
          simp only [hzc, hic, if_true]
          constructor <;> omega
        · simp only [hzc, hic, if_true, if_false]
          constructor <;> omega
      · have hic : ¬ i < c := by omega
        have := hd s z s' i hb hb' hz (by omega) (by omega)
        simp only at this
        simp only [hzc, hic, if_false]
        constructor <;> omega
    | _ => exact absurd trivial hf

/-! ### violations -/

theorem mem_pcont_all {n : ℕ} {bad : ℕ → ℕ → ℕ → ℕ → Bool} {i r j k : ℕ} :
    ((i, r), (j, k)) ∈ pvalueViolationsCont n bad .all ↔ r ≤ i ∧ i < k ∧ k ≤ j ∧ j < n ∧ bad i r j k = true := by
  unfold pvalueViolationsCont
  simp only [List.mem_flatMap, List.mem_range, List.mem_filterMap, List.mem_range'_1]
  constructor
  · rintro ⟨i', hi, r', hr, j', hj, k', hk, heq⟩
    split_ifs at heq with ht
    simp only [Option.some.injEq, Prod.mk.injEq] at heq
    obtain ⟨⟨rfl, rfl⟩, rfl, rfl⟩ := heq
    exact ⟨by omega, by omega, by omega, by omega, ht⟩
  · rintro ⟨h1, h2, h3, h4, ht⟩
    exact ⟨i, by omega, r, by omega, j, by omega, k, by omega, by rw [if_pos ht]⟩

theorem mem_pcont_consecutive {n : ℕ} {bad : ℕ → ℕ → ℕ → ℕ → Bool} {i r j k : ℕ} :
    ((i, r), (j, k)) ∈ pvalueViolationsCont n bad .consecutive ↔
      r ≤ i ∧ k = i + 1 ∧ k ≤ j ∧ j < n ∧ bad i r j k = true := by
  unfold pvalueViolationsCont
  simp only [List.mem_flatMap, List.mem_range, List.mem_filterMap, List.mem_range'_1]
  constructor
  · rintro ⟨i', hi, r', hr, j', hj, heq⟩
    split_ifs at heq with ht
    simp only [Option.some.injEq, Prod.mk.injEq] at heq
    obtain ⟨⟨rfl, rfl⟩, rfl, rfl⟩ := heq
    exact ⟨by omega, by omega, by omega, by omega, ht⟩
  · rintro ⟨h1, rfl, h3, h4, ht⟩
    exact ⟨i, by omega, r, by omega, j, by omega, by rw [if_pos ht]⟩

/-- Standard deviation of the bin `s..e` from records, sums and sums of squares. -/
noncomputable def binStd (inp : ContInput) (s e : ℕ) : ℝ :=
  Real.sqrt ((binTotal inp.ssum s e / ((binTotal inp.recs s e : ℤ) : ℚ) - binMean inp.recs inp.sum s e ^ 2 : ℚ) : ℝ)

/-- The two bins do not pass the t-test: mean, standard deviation and size of each. -/
def failsTTest (inp : ContInput) (s e s' e' : ℕ) : Prop :=
  ∃ t, inp.test = some t ∧
    t (binMean inp.recs inp.sum s e) (binStd inp s e) (binTotal inp.recs s e).toNat
      (binMean inp.recs inp.sum s' e') (binStd inp s' e') (binTotal inp.recs s' e').toNat = true

/-- The means of the two bins are closer than `min_mean_diff`. -/
def meansTooClose (inp : ContInput) (s e s' e' : ℕ) : Prop :=
  0 < inp.minDiff ∧ |binMean inp.recs inp.sum s e - binMean inp.recs inp.sum s' e'| < inp.minDiff

theorem contStd_eq (inp : ContInput) (hw : inp.Wf) {i j : ℕ} (hi : i < inp.n) (hj : j ≤ i) :
    inp.std i j = binStd inp j i := by
  unfold ContInput.std binStd
  rw [contMean_eq inp hw hi hj, ← contRecords inp hi hj, cumAt_eq inp.ssums (by rw [hw.lenQ]; exact hi) hj,
    Int.cast_natCast]
  rfl

theorem contRecords_nat (inp : ContInput) {i j : ℕ} (hi : i < inp.n) (hj : j ≤ i) :
    cumAt inp.records i j = (binTotal inp.recs j i).toNat := by
  rw [← contRecords inp hi hj]; simp

theorem enum_pviolCont (inp : ContInput) (hw : inp.Wf) : Enumerates inp.policy inp.n inp.pviol (failsTTest inp) := by
  intro i r j k
  unfold ContInput.pviol failsTTest
  cases ht : inp.test with
  | none => simp
  | some t =>
    have key : ∀ {i r j k : ℕ}, r ≤ i → i < k → k ≤ j → j < inp.n →
        (t (inp.mean i r) (inp.std i r) (cumAt inp.records i r) (inp.mean j k) (inp.std j k) (cumAt inp.records j k) = true ↔
        ∃ t', some t = some t' ∧ t' (binMean inp.recs inp.sum r i) (binStd inp r i) (binTotal inp.recs r i).toNat
          (binMean inp.recs inp.sum k j) (binStd inp k j) (binTotal inp.recs k j).toNat = true) := by
      intro i r j k h1 h2 h3 h4
      have hi : i < inp.n := by omega
      rw [contMean_eq inp hw hi h1, contMean_eq inp hw h4 h3, contStd_eq inp hw hi h1, contStd_eq inp hw h4 h3,
        contRecords_nat inp hi h1, contRecords_nat inp h4 h3]
      simp
    cases hp : inp.policy with
    | all =>
      simp only [mem_pcont_all, reduceCtorEq, false_implies, true_and]
      constructor
      · rintro ⟨h1, h2, h3, h4, h5⟩
        exact ⟨h1, h2, h3, h4, (key h1 h2 h3 h4).1 h5⟩
      · rintro ⟨h1, h2, h3, h4, h5⟩
        exact ⟨h1, h2, h3, h4, (key h1 h2 h3 h4).2 h5⟩
    | consecutive =>
      simp only [mem_pcont_consecutive, forall_const]
      constructor
      · rintro ⟨h1, h2, h3, h4, h5⟩
        exact ⟨h1, by omega, h2, h3, h4, (key h1 (by omega) h3 h4).1 h5⟩
      · rintro ⟨h1, h2, h2', h3, h4, h5⟩
        exact ⟨h1, h2', h3, h4, (key h1 h2 h3 h4).2 h5⟩

theorem enum_mdiffCont (inp : ContInput) (hw : inp.Wf) : Enumerates .consecutive inp.n inp.mdiff (meansTooClose inp) := by
  intro i r j k
  unfold ContInput.mdiff meansTooClose
  split_ifs with hpos
  · rw [mem_minDiff]
    simp only [forall_const]
    constructor
    · rintro ⟨h1, h2, h3, h4, h5⟩
      rw [contMean_eq inp hw (by omega) h1, contMean_eq inp hw h4 h3] at h5
      exact ⟨h1, by omega, h2, h3, h4, hpos, h5⟩
    · rintro ⟨h1, h2, h2', h3, h4, -, h5⟩
      refine ⟨h1, h2', h3, h4, ?_⟩
      rw [contMean_eq inp hw (by omega) h1, contMean_eq inp hw h4 h3]
      exact h5
  · simp only [List.not_mem_nil, false_iff]
    rintro ⟨-, -, -, -, -, h, -⟩
    exact hpos h

/-! ### the accepted assignments -/

/-- Means at the precision of the solver: `10^6 · mean`, truncated towards zero. -/
def mean6 (inp : ContInput) (s e : ℕ) : ℤ := truncRat (binMean inp.recs inp.sum s e * 1000000)

theorem contU_eq (inp : ContInput) (hw : inp.Wf) {i j : ℕ} (hi : i < inp.n) (hj : j ≤ i) : inp.U i j = mean6 inp j i := by
  unfold ContInput.U mean6
  rw [contMean_eq inp hw hi hj]
  simp [scale]

theorem trendHolds_congr {R : Type*} [CommRing R] [LinearOrder R] {n : ℕ} {sol : ℕ → Bool} {r r' : ℕ → ℕ → R}
    (h : ∀ s e, s ≤ e → e < n → r s e = r' s e) {t : Trend} (ht : TrendHolds n sol r t) : TrendHolds n sol r' t := by
  have hr : ∀ s e, IsBin n sol s e → r s e = r' s e := fun s e hb => h s e hb.1 hb.2.1
  have hasc : ∀ P, AscendingOn n sol r P → AscendingOn n sol r' P := by
    intro P hp s e s' e' hb hb' hlt h1 h2
    rw [← hr s e hb, ← hr s' e' hb']; exact hp s e s' e' hb hb' hlt h1 h2
  have hdesc : ∀ P, DescendingOn n sol r P → DescendingOn n sol r' P := by
    intro P hp s e s' e' hb hb' hlt h1 h2
    rw [← hr s e hb, ← hr s' e' hb']; exact hp s e s' e' hb hb' hlt h1 h2
  cases t with
  | unconstrained => trivial
  | ascending => exact hasc _ ht
  | descending => exact hdesc _ ht
  | concave =>
    intro s₁ e₁ s₂ e₂ s₃ e₃ h1 h2 h3 h12 h23
    rw [← hr _ _ h1, ← hr _ _ h2, ← hr _ _ h3]; exact ht s₁ e₁ s₂ e₂ s₃ e₃ h1 h2 h3 h12 h23
  | convex =>
    intro s₁ e₁ s₂ e₂ s₃ e₃ h1 h2 h3 h12 h23
    rw [← hr _ _ h1, ← hr _ _ h2, ← hr _ _ h3]; exact ht s₁ e₁ s₂ e₂ s₃ e₃ h1 h2 h3 h12 h23
  | peak => obtain ⟨c, h1, h2⟩ := ht; exact ⟨c, hasc _ h1, hdesc _ h2⟩
  | valley => obtain ⟨c, h1, h2⟩ := ht; exact ⟨c, hdesc _ h1, hasc _ h2⟩
  | peakHeuristic c => exact ⟨hasc _ ht.1, hdesc _ ht.2⟩
  | valleyHeuristic c => exact ⟨hdesc _ ht.1, hasc _ ht.2⟩

theorem acceptsCont.core {o : Opts} {inp : ContInput} {a : Assign} (h : acceptsCont o inp a) : Core inp.n a.x :=
  ⟨h.1.1, h.2.2.1, h.2.2.2.1⟩

/-- The change point of a heuristic trend is a position of the pre-bins. -/
def ChangeInRange (o : Opts) (inp : ContInput) : Prop :=
  ∀ tc, o.trend = .peakHeuristic tc ∨ o.trend = .valleyHeuristic tc → tc ≤ inp.n

theorem acceptsCont.sound {o : Opts} {inp : ContInput} {a : Assign} (hw : inp.Wf) (htc : ChangeInRange o inp)
    (h : acceptsCont o inp a) :
    AdmissibleMean o inp.n (diag a.x) inp.recs (mean6 inp) ∧
    Separated inp.policy inp.n (diag a.x) (failsTTest inp) ∧
    Separated .consecutive inp.n (diag a.x) (meansTooClose inp) := by
  have hc := h.core
  obtain ⟨⟨-, hy, hd, hu⟩, -, -, -, hb, hs, hmono, hv1, hv2, hfix⟩ := h
  have hbins := minMaxBins_sound hc hd hb
  have e1 := enum_pviolCont inp hw
  have e2 := enum_mdiffCont inp hw
  refine ⟨⟨hc.isBinning hw.pos, hbins.1, hbins.2, fun s e hbin => (minMaxBinSize_sound hc hu hs hbin).1,
      fun s e hbin => (minMaxBinSize_sound hc hu hs hbin).2, ?_, ?_⟩,
    (e1.separated _).1 ((violationCP_iff hc e1.wf).1 hv1), (e2.separated _).1 ((violationCP_iff hc e2.wf).1 hv2)⟩
  · exact trendHolds_congr (fun s e hse he => contU_eq inp hw he hse) (contMono_sound hc hy htc hmono)
  · intro f hf i hi hfi
    exact (diag_eq_true hc (by omega)).2 (hfix f hf i hi hfi)

theorem acceptsCont.complete {o : Opts} {inp : ContInput} {sol : ℕ → Bool} (hw : inp.Wf) (htc : ChangeInRange o inp)
    (hss : o.trend.fixedShape ∨ SameSign inp.n inp.U)
    (h : AdmissibleMean o inp.n sol inp.recs (mean6 inp))
    (hp : Separated inp.policy inp.n sol (failsTTest inp))
    (hd : Separated .consecutive inp.n sol (meansTooClose inp)) :
    ∃ a, acceptsCont o inp a ∧ a.x = encode sol ∧ a.pmax = 0 ∧ a.pmin = inp.records.sum := by
  have hc := encode_core h.binning
  have hdg := encode_diag sol
  have hT : TrendHolds inp.n (diag (encode sol)) (fun s e => inp.U e s) o.trend := by
    rw [hdg]
    exact trendHolds_congr (fun s e hse he => (contU_eq inp hw he hse).symm) h.trend
  obtain ⟨y, T, hy, hT0, hTn, hmono⟩ := contMono_complete hc hss htc hT
  have hbins := minMaxBins_complete (o := o) hc (by rw [hdg]; exact h.minBins) (by rw [hdg]; exact h.maxBins)
  have hsize := minMaxBinSize_complete (o := o) (c := inp.recs) hc hw.pos
    (by rw [hdg]; exact fun s e hb => ⟨h.minSize s e hb, h.maxSize s e hb⟩)
  have e1 := enum_pviolCont inp hw
  have e2 := enum_mdiffCont inp hw
  refine ⟨⟨encode sol, y, T, dWit o inp.n (diag (encode sol)), uWit o (encode sol) inp.recs, 0, inp.records.sum⟩, ?_, rfl, rfl,
    rfl⟩
  refine ⟨⟨hc.bool, fun _ => ⟨hy, hT0, hTn⟩, hbins.1, hsize.1⟩, fun _ => ⟨le_rfl, by positivity, by positivity, le_rfl⟩,
    hc.uniq, hc.cont, hbins.2, hsize.2, hmono _ rfl rfl rfl, ?_, ?_, ?_⟩
  · exact (violationCP_iff hc e1.wf).2 ((e1.separated _).2 (by rw [hdg]; exact hp))
  · exact (violationCP_iff hc e2.wf).2 ((e2.separated _).2 (by rw [hdg]; exact hd))
  · intro f hf i hi hfi
    exact (diag_eq_true hc (by omega)).1 (by rw [hdg]; exact h.fixed f hf i hi hfi)

/-- The plain objective is the sum over the bins of the truncated distances. -/
theorem contObjective_eq {inp : ContInput} {x : ℕ → ℕ → ℤ} (hw : inp.Wf) (h : Core inp.n x) :
    contObjectivePlain inp x = totalOverBins inp.n (diag x) fun s e =>
      ⌊|binMean inp.recs inp.sum s e - binMean inp.recs inp.sum 0 (inp.n - 1)| * 1000000⌋ := by
  have h1 := objective_eq (R := ℤ) (dat := { n := inp.n, nonevent := fun _ => 0, event := fun _ => 0, D := inp.U, V := inp.V })
    (x := x) h
  unfold objective at h1
  simp only [Int.cast_id] at h1
  unfold contObjectivePlain
  rw [h1]
  unfold totalOverBins
  apply Finset.sum_congr rfl
  rintro ⟨s, e⟩ hp
  classical
  unfold binsOf at hp
  simp only [mem_filter] at hp
  have hb := hp.2
  change truncRat (|inp.mean e s - inp.tMean| * ((scale : ℤ) : ℚ)) =
    ⌊|binMean inp.recs inp.sum s e - binMean inp.recs inp.sum 0 (inp.n - 1)| * 1000000⌋
  unfold truncRat
  rw [contMean_eq inp hw hb.2.1 hb.1, contTMean_eq inp hw]
  have : 0 ≤ |binMean inp.recs inp.sum s e - binMean inp.recs inp.sum 0 (inp.n - 1)| * ((scale : ℤ) : ℚ) := by
    unfold scale; positivity
  rw [if_pos this]
  simp [scale]

end OptBinning
