import Mathlib.Data.List.GetD
import Verif.Model.MulticlassSolver
import Verif.Lemmas.Refine
import Verif.Props.Solver

/-! # The multiclass formulations, class by class -/
namespace OptBinning
open Finset Spec

/-- The arrays are rectangular: `n ≥ 1` rows and one column per class (and one trend per class). -/
structure MultiInput.Wf (inp : MultiInput) (o : MultiOpts) : Prop where
  pos : 0 < inp.n
  cls : o.trends.length = inp.classes
  some_class : 0 < inp.classes
  nclasses : inp.nonevent.length = inp.event.length
  ev : ∀ l ∈ inp.event, l.length = inp.n
  ne : ∀ l ∈ inp.nonevent, l.length = inp.n

theorem MultiInput.Wf.column {inp : MultiInput} {o : MultiOpts} (h : inp.Wf o) {c : ℕ} (hc : c < inp.classes) :
    (inp.cls c).Wf ∧ (inp.cls c).n = inp.n := by
  have h1 : c < inp.event.length := hc
  have h2 : c < inp.nonevent.length := by rw [h.nclasses]; exact hc
  have e1 : (inp.event.getD c []).length = inp.n := by
    rw [List.getD_eq_getElem _ _ h1]; exact h.ev _ (List.getElem_mem h1)
  have e2 : (inp.nonevent.getD c []).length = inp.n := by
    rw [List.getD_eq_getElem _ _ h2]; exact h.ne _ (List.getElem_mem h2)
  exact ⟨⟨by change (inp.event.getD c []).length = (inp.nonevent.getD c []).length; rw [e1, e2],
    by change 0 < (inp.nonevent.getD c []).length; rw [e2]; exact h.pos⟩, e2⟩

/-- The trend that reaches the constraints. -/
def Trend.enforced : Trend → Trend
  | .ascending => .ascending
  | .descending => .descending
  | .peak => .peak
  | .valley => .valley
  | _ => .unconstrained

/-- The options of class `c`, as options of a binary problem. -/
def MultiOpts.cls (o : MultiOpts) (c : ℕ) : Opts :=
  { minBins := o.minBins, maxBins := o.maxBins, fixed := o.fixed, trend := (o.trend c).enforced }

section
variable {R : Type*} [CommRing R] [LinearOrder R] [IsStrictOrderedRing R]

omit [LinearOrder R] [IsStrictOrderedRing R] in
theorem multi_first_eq (K M : R) (D : ℕ → ℕ → R) (x : ℕ → ℕ → ℤ) (z i : ℕ) (c : R) :
    K * c + M + (D z z - M) * (x z z : R) + rowS D x z - rowS D x i - D i i * (x i i : R)
      = K * c + (M - M * (x z z : R) + rowRate D x z - rowRate D x i) := by
  unfold rowRate; ring

/-- With rates in `[0, M]` any coefficient `K ≥ M` of the side indicators gives the same constraint. -/
theorem indicator_coeff {K M e : R} (hM : 0 ≤ M) (hK : M ≤ K) (he : -M ≤ e) {k : ℤ} (hk : k = 0 ∨ 1 ≤ k) :
    K * (k : R) + e ≥ 0 ↔ M * (k : R) + e ≥ 0 := by
  rcases hk with rfl | hk
  · simp
  · have h1 : (1 : R) ≤ (k : R) := by exact_mod_cast hk
    have h2 : M ≤ M * (k : R) := by nlinarith
    have h3 : M * (k : R) ≤ K * (k : R) := by nlinarith
    constructor <;> intro _ <;> linarith

theorem Core.diff_bound {n : ℕ} {x : ℕ → ℕ → ℤ} (h : Core n x) {M : R} (hM : 0 ≤ M) {D : ℕ → ℕ → R}
    (hD : ∀ i < n, ∀ j ≤ i, 0 ≤ D i j ∧ D i j ≤ M) {z i : ℕ} (hz : z < n) (hi : i < n) :
    -M ≤ M - M * (x z z : R) + rowRate D x z - rowRate D x i := by
  have b1 := h.rate_bounds hM hD hz
  have b2 := h.rate_bounds hM hD hi
  rcases h.one_or hz with h0 | ⟨h1, -⟩
  · rw [h0]; push_cast; linarith [b1.1, b2.2]
  · rw [h1]; push_cast; linarith [b1.1, b2.2]

theorem multiPeak_iff {n : ℕ} {x : ℕ → ℕ → ℤ} (h : Core n x) {K M : R} (hM : 0 ≤ M) (hK : M ≤ K) {D : ℕ → ℕ → R}
    (hD : ∀ i < n, ∀ j ≤ i, 0 ≤ D i j ∧ D i j ≤ M) {y : ℕ → ℤ} (hy : ∀ i < n, y i = 0 ∨ y i = 1) :
    multiPeak K M n D x y ↔ monoPeak M n D x y := by
  unfold multiPeak monoPeak
  refine forall_congr' fun i => forall_congr' fun h1 => forall_congr' fun hi => forall_congr' fun z =>
    forall_congr' fun hz => ?_
  have hzn : z < n := by omega
  refine and_congr ?_ ?_
  · rw [multi_first_eq K, multi_first_eq M, ← Int.cast_add]
    exact indicator_coeff hM hK (h.diff_bound hM hD hzn hi) (by
      rcases hy i hi with a | a <;> rcases hy z hzn with b | b <;> rw [a, b] <;> norm_num)
  · have e : (2 - (y i : R) - (y z : R)) = ((2 - y i - y z : ℤ) : R) := by push_cast; ring
    rw [multi_first_eq K, multi_first_eq M, e]
    exact indicator_coeff hM hK (h.diff_bound hM hD hi hzn) (by
      rcases hy i hi with a | a <;> rcases hy z hzn with b | b <;> rw [a, b] <;> norm_num)

theorem multiValley_iff {n : ℕ} {x : ℕ → ℕ → ℤ} (h : Core n x) {K M : R} (hM : 0 ≤ M) (hK : M ≤ K) {D : ℕ → ℕ → R}
    (hD : ∀ i < n, ∀ j ≤ i, 0 ≤ D i j ∧ D i j ≤ M) {y : ℕ → ℤ} (hy : ∀ i < n, y i = 0 ∨ y i = 1) :
    multiValley K M n D x y ↔ monoValley M n D x y := by
  unfold multiValley monoValley
  refine forall_congr' fun i => forall_congr' fun h1 => forall_congr' fun hi => forall_congr' fun z =>
    forall_congr' fun hz => ?_
  have hzn : z < n := by omega
  refine and_congr ?_ ?_
  · rw [multi_first_eq K, multi_first_eq M, ← Int.cast_add]
    exact indicator_coeff hM hK (h.diff_bound hM hD hi hzn) (by
      rcases hy i hi with a | a <;> rcases hy z hzn with b | b <;> rw [a, b] <;> norm_num)
  · have e : (2 - (y i : R) - (y z : R)) = ((2 - y i - y z : ℤ) : R) := by push_cast; ring
    rw [multi_first_eq K, multi_first_eq M, e]
    exact indicator_coeff hM hK (h.diff_bound hM hD hzn hi) (by
      rcases hy i hi with a | a <;> rcases hy z hzn with b | b <;> rw [a, b] <;> norm_num)

theorem none_count (n : ℕ) (x : ℕ → ℕ → ℤ) (c : ℕ → ℤ) : minMaxCount none none n x c := by
  intro i _
  constructor <;> intro b hb <;> cases hb

/-- One class of the multiclass constraints is the binary formulation with the enforced trend and the same `x`. -/
theorem multi_class_iff {o : MultiOpts} {c n : ℕ} {a : Assign} {zero : Bool} {K M : R} (hM : 0 ≤ M)
    (hK : 2 ≤ n → M ≤ K) {dat : Data R} (hn : dat.n = n)
    (hD : ∀ i < n, ∀ j ≤ i, 0 ≤ dat.D i j ∧ dat.D i j ≤ M) :
    (multiBase o zero n a ∧ multiTrend zero K M n dat.D a.x (o.trend c)) ↔
      ∃ a', a'.x = a.x ∧ a'.d = a.d ∧ feasibleCore { o.cls c with minRateDiffZero := zero, scenario := false } M dat a' := by
  subst hn
  have core_of : multiBase o zero dat.n a → Core dat.n a.x := fun h => ⟨h.1.1, h.2.1, h.2.2.1⟩
  have small : ∀ {y : ℕ → ℤ}, ¬ 2 ≤ dat.n → (multiPeak K M dat.n dat.D a.x y ↔ monoPeak M dat.n dat.D a.x y) ∧
      (multiValley K M dat.n dat.D a.x y ↔ monoValley M dat.n dat.D a.x y) := by
    intro y h2
    refine ⟨⟨fun _ i h1 hi => ?_, fun _ i h1 hi => ?_⟩, ⟨fun _ i h1 hi => ?_, fun _ i h1 hi => ?_⟩⟩ <;> omega
  have pk : Core dat.n a.x → ∀ {y : ℕ → ℤ}, (∀ i < dat.n, y i = 0 ∨ y i = 1) →
      (multiPeak K M dat.n dat.D a.x y ↔ monoPeak M dat.n dat.D a.x y) ∧
      (multiValley K M dat.n dat.D a.x y ↔ monoValley M dat.n dat.D a.x y) := by
    intro hc y hy
    by_cases h2 : 2 ≤ dat.n
    · exact ⟨multiPeak_iff hc hM (hK h2) hD hy, multiValley_iff hc hM (hK h2) hD hy⟩
    · exact small h2
  constructor
  · rintro ⟨hb, ht⟩
    have hc := core_of hb
    obtain ⟨⟨d1, d2, d3, d4⟩, b2, b3, b4, b5⟩ := hb
    have mk : ∀ y t, ((o.trend c).enforced = .peak ∨ (o.trend c).enforced = .valley →
          (∀ i < dat.n, y i = 0 ∨ y i = 1) ∧ 0 ≤ t ∧ t ≤ (dat.n : ℤ)) →
        monotonicity { o.cls c with minRateDiffZero := zero, scenario := false } M dat.n dat.D
          { x := a.x, y := y, t := t, d := a.d } →
        ∃ a', a'.x = a.x ∧ a'.d = a.d ∧
          feasibleCore { o.cls c with minRateDiffZero := zero, scenario := false } M dat a' := by
      intro y t hyt hm
      refine ⟨{ x := a.x, y := y, t := t, d := a.d }, rfl, rfl, ⟨d1, hyt, d3, ?_⟩, b2, b3, b4, trivial, ?_, ?_, hm, ?_, b5⟩
      · intro mn mx h; cases h
      · exact none_count _ _ _
      · exact none_count _ _ _
      · intro hg; cases hg
    cases htr : o.trend c with
    | ascending =>
      rw [htr] at ht
      refine mk (fun _ => 0) 0 (by simp [htr, Trend.enforced]) ?_
      simp only [monotonicity, MultiOpts.cls, htr, Trend.enforced]
      exact ht
    | descending =>
      rw [htr] at ht
      refine mk (fun _ => 0) 0 (by simp [htr, Trend.enforced]) ?_
      simp only [monotonicity, MultiOpts.cls, htr, Trend.enforced]
      exact ht
    | peak =>
      rw [htr] at ht
      obtain ⟨y, t, ⟨h1, h2⟩, h3⟩ := ht
      refine mk y t (fun _ => h1) ?_
      simp only [monotonicity, MultiOpts.cls, htr, Trend.enforced]
      exact ⟨h2, (pk hc h1.1).1.1 h3⟩
    | valley =>
      rw [htr] at ht
      obtain ⟨y, t, ⟨h1, h2⟩, h3⟩ := ht
      refine mk y t (fun _ => h1) ?_
      simp only [monotonicity, MultiOpts.cls, htr, Trend.enforced]
      exact ⟨h2, (pk hc h1.1).2.1 h3⟩
    | _ =>
      refine mk (fun _ => 0) 0 (by simp [htr, Trend.enforced]) ?_
      simp only [monotonicity, MultiOpts.cls, htr, Trend.enforced]
  · rintro ⟨a', hx, hd, ⟨d1, d2, d3, d4⟩, b2, b3, b4, -, -, -, hm, -, b5⟩
    rw [hx] at d1 b2 b3 b4 b5
    rw [hd] at d3 b4
    have hc : Core dat.n a.x := ⟨d1, b2, b3⟩
    refine ⟨⟨⟨d1, ?_, d3, ?_⟩, b2, b3, b4, b5⟩, ?_⟩
    · rintro (h | h) <;> cases h
    · intro mn mx h; cases h
    · cases htr : o.trend c with
      | ascending => simp only [monotonicity, MultiOpts.cls, htr, Trend.enforced, hx] at hm; exact hm
      | descending => simp only [monotonicity, MultiOpts.cls, htr, Trend.enforced, hx] at hm; exact hm
      | peak =>
        simp only [monotonicity, MultiOpts.cls, htr, Trend.enforced, hx] at hm
        simp only [MultiOpts.cls, htr, Trend.enforced] at d2
        have d2' := d2 (by simp)
        exact ⟨a'.y, a'.t, ⟨d2', hm.1⟩, (pk hc d2'.1).1.2 hm.2⟩
      | valley =>
        simp only [monotonicity, MultiOpts.cls, htr, Trend.enforced, hx] at hm
        simp only [MultiOpts.cls, htr, Trend.enforced] at d2
        have d2' := d2 (by simp)
        exact ⟨a'.y, a'.t, ⟨d2', hm.1⟩, (pk hc d2'.1).2.2 hm.2⟩
      | _ => trivial

end

/-- The CP model accepts `a` iff every class accepts it as a binary problem. -/
theorem acceptsMultiCP_iff {o : MultiOpts} {inp : MultiInput} {a : Assign} (hw : inp.Wf o) :
    acceptsMultiCP o inp a ↔
      ∀ c < inp.classes, ∃ a', a'.x = a.x ∧ a'.d = a.d ∧ acceptsCP (o.cls c) (inp.cls c) a' := by
  have key : ∀ c < inp.classes, (multiBase o (decide (inp.minDiff = 0)) inp.n a ∧
      multiTrend (decide (inp.minDiff = 0)) (1000000 : ℤ) 1000000 inp.n (inp.cls c).rateCP a.x (o.trend c)) ↔ _ :=
    fun c hc => multi_class_iff (o := o) (c := c) (a := a) (zero := decide (inp.minDiff = 0)) (K := (1000000 : ℤ))
      (M := 1000000) (by norm_num) (fun _ => le_rfl) (dat := (inp.cls c).dataCP) (hw.column hc).2
      (fun i _ j _ => rateCP_bounds _ i j)
  unfold acceptsMultiCP
  rw [hw.cls]
  constructor
  · rintro ⟨h1, h2, h3, h4⟩ c hc
    obtain ⟨a', hx, hd, hf⟩ := (key c hc).1 ⟨h1, h2 c hc⟩
    exact ⟨a', hx, hd, hf, by rw [hx]; exact h3 c hc, by rw [hx]; exact h4 c hc⟩
  · intro h
    have h0 := h 0 hw.some_class
    obtain ⟨a0, hx0, hd0, hf0, -⟩ := h0
    refine ⟨((key 0 hw.some_class).2 ⟨a0, hx0, hd0, hf0⟩).1, fun c hc => ?_, fun c hc => ?_, fun c hc => ?_⟩
    · obtain ⟨a', hx, hd, hf, -⟩ := h c hc
      exact ((key c hc).2 ⟨a', hx, hd, hf⟩).2
    · obtain ⟨a', hx, hd, hf, hp, hm⟩ := h c hc
      rw [← hx]; exact hp
    · obtain ⟨a', hx, hd, hf, hp, hm⟩ := h c hc
      rw [← hx]; exact hm

/-- The MIP model accepts `a` iff every class accepts it as a binary problem. -/
theorem acceptsMultiMIP_iff {o : MultiOpts} {inp : MultiInput} {a : Assign} (hw : inp.Wf o) :
    acceptsMultiMIP o inp a ↔
      ∀ c < inp.classes, ∃ a', a'.x = a.x ∧ a'.d = a.d ∧ acceptsMIP (o.cls c) (inp.cls c) a' := by
  have key : ∀ c < inp.classes, (multiBase o (decide (inp.minDiff = 0)) inp.n a ∧
      multiTrend (decide (inp.minDiff = 0)) ((inp.n : ℕ) : ℝ) 1 inp.n (inp.cls c).dataMIP.D a.x (o.trend c)) ↔ _ :=
    fun c hc => multi_class_iff (o := o) (c := c) (a := a) (zero := decide (inp.minDiff = 0)) (K := ((inp.n : ℕ) : ℝ))
      (M := (1 : ℝ)) (by norm_num) (fun h2 => by exact_mod_cast (by omega : 1 ≤ inp.n)) (dat := (inp.cls c).dataMIP)
      (hw.column hc).2
      (fun i _ j _ => by
        have := rate_bounds (inp.cls c) i j
        change 0 ≤ (((inp.cls c).rate i j : ℚ) : ℝ) ∧ (((inp.cls c).rate i j : ℚ) : ℝ) ≤ 1
        exact ⟨by exact_mod_cast this.1, by exact_mod_cast this.2⟩)
  unfold acceptsMultiMIP
  rw [hw.cls]
  constructor
  · rintro ⟨h1, h2, h3, h4⟩ c hc
    obtain ⟨a', hx, hd, hf⟩ := (key c hc).1 ⟨h1, h2 c hc⟩
    exact ⟨a', hx, hd, hf, by rw [hx]; exact h3 c hc, by rw [hx]; exact h4 c hc⟩
  · intro h
    obtain ⟨a0, hx0, hd0, hf0, -⟩ := h 0 hw.some_class
    refine ⟨((key 0 hw.some_class).2 ⟨a0, hx0, hd0, hf0⟩).1, fun c hc => ?_, fun c hc => ?_, fun c hc => ?_⟩
    · obtain ⟨a', hx, hd, hf, -⟩ := h c hc
      exact ((key c hc).2 ⟨a', hx, hd, hf⟩).2
    · obtain ⟨a', hx, hd, hf, hp, hm⟩ := h c hc
      rw [← hx]; exact hp
    · obtain ⟨a', hx, hd, hf, hp, hm⟩ := h c hc
      rw [← hx]; exact hm

end OptBinning
