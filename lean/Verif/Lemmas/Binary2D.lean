import Verif.Lemmas.Fit2D

/-!
# The two-dimensional fit for a binary target: the candidates, the program and the result
-/
namespace OptBinning

open Spec

set_option linter.unusedSectionVars false

theorem keepBinary_iff {o : Opts2D} {fne fe : ℕ → ℕ} {row : List ℕ} :
    keepBinary o fne fe row = true ↔
      0 < (row.map fe).sum ∧ 0 < (row.map fne).sum ∧
      Within o.minSize o.maxSize (((row.map fe).sum + (row.map fne).sum : ℕ) : ℤ) ∧
      Within o.minEvent o.maxEvent (((row.map fe).sum : ℕ) : ℤ) ∧
      Within o.minNonevent o.maxNonevent (((row.map fne).sum : ℕ) : ℤ) := by
  have key : ∀ (lo hi : Option ℤ) (v : ℤ), Within lo hi v ↔
      (¬ (lo.any fun b => decide (v < b)) = true) ∧ ¬ (hi.any fun b => decide (b < v)) = true := by
    intro lo hi v
    cases lo <;> cases hi <;> simp [Within]
  simp only [keepBinary, key, Nat.pos_iff_ne_zero]
  split_ifs <;> simp_all <;> tauto

theorem keepContinuous_iff {o : Opts2D} {fr : ℕ → ℕ} {row : List ℕ} :
    keepContinuous o fr row = true ↔
      0 < (row.map fr).sum ∧ Within o.minSize o.maxSize (((row.map fr).sum : ℕ) : ℤ) := by
  have key : ∀ (lo hi : Option ℤ) (v : ℤ), Within lo hi v ↔
      (¬ (lo.any fun b => decide (v < b)) = true) ∧ ¬ (hi.any fun b => decide (b < v)) = true := by
    intro lo hi v
    cases lo <;> cases hi <;> simp [Within]
  simp only [keepContinuous, key, Nat.pos_iff_ne_zero]
  split_ifs <;> simp_all

theorem nodup_candidates (m n : ℕ) (keep : List ℕ → Bool) : (candidates m n keep).Nodup := (nodup_allRects m n).filter _

theorem candidates_sub {m n : ℕ} {keep : List ℕ → Bool} : ∀ t ∈ candidates m n keep, t ∈ allRects m n :=
  fun _ h => (List.mem_filter.1 h).1

theorem rectSum_eq {S : Type*} [AddCommMonoid S] {m n : ℕ} {cands : List Rect} (hc : ∀ t ∈ cands, t ∈ allRects m n)
    (M : ℕ → ℕ → S) {i : ℕ} (hi : i < cands.length) :
    rectSum (cands.map (Rect.row n)) (ravel n M) i = cands[i].block.total M := by
  rw [rectSum, List.getD_eq_getElem _ _ (by simpa using hi), List.getElem_map,
    sum_row (mem_allRects.1 (hc _ (List.getElem_mem hi))).2.2.2]

/-- Total over the whole grid. -/
def gridTotal {S : Type*} [AddCommMonoid S] (m n : ℕ) (M : ℕ → ℕ → S) : S := (Block.mk 0 m 0 n).total M

section
variable {R : Type*} [CommRing R] [LinearOrder R] [IsStrictOrderedRing R] {o : Opts2D} {m n : ℕ} {NE E : ℕ → ℕ → ℕ}
  {coef : ℚ → ℚ → R} {gamma : Bool} {reg : ℕ → R}

theorem binary_cands : ∀ t ∈ (binaryProgram o m n NE E coef gamma reg).1, t ∈ allRects m n := candidates_sub

theorem binary_nodup : (binaryProgram o m n NE E coef gamma reg).1.Nodup := nodup_candidates _ _ _

/-- The requirements on a single bin. -/
def GoodBlock (o : Opts2D) (NE E : ℕ → ℕ → ℕ) (b : Block) : Prop :=
  0 < b.total E ∧ 0 < b.total NE ∧ Within o.minSize o.maxSize ((b.total E + b.total NE : ℕ) : ℤ) ∧
    Within o.minEvent o.maxEvent ((b.total E : ℕ) : ℤ) ∧ Within o.minNonevent o.maxNonevent ((b.total NE : ℕ) : ℤ)

theorem binary_mem {t : Rect} : t ∈ (binaryProgram o m n NE E coef gamma reg).1 ↔
    t ∈ allRects m n ∧ GoodBlock o NE E t.block := by
  simp only [binaryProgram, candidates, List.mem_filter]
  refine and_congr_right fun h => ?_
  rw [keepBinary_iff, sum_row (mem_allRects.1 h).2.2.2, sum_row (mem_allRects.1 h).2.2.2, GoodBlock]

theorem binary_rate {i : ℕ} (hi : i < (binaryProgram o m n NE E coef gamma reg).1.length) :
    (binaryProgram o m n NE E coef gamma reg).2.er i =
      blockRate NE E ((binaryProgram o m n NE E coef gamma reg).1[i]).block := by
  have h1 := rectSum_eq (binary_cands (o := o) (NE := NE) (E := E) (coef := coef) (gamma := gamma) (reg := reg) (m := m) (n := n)) E hi
  have h2 := rectSum_eq (binary_cands (o := o) (NE := NE) (E := E) (coef := coef) (gamma := gamma) (reg := reg) (m := m) (n := n)) NE hi
  simp only [binaryProgram, program2D, rateOf, blockRate] at *
  rw [h1, h2]

theorem binary_records {i : ℕ} (hi : i < (binaryProgram o m n NE E coef gamma reg).1.length) :
    (binaryProgram o m n NE E coef gamma reg).2.records i =
      (fun b : Block => b.total E + b.total NE) ((binaryProgram o m n NE E coef gamma reg).1[i]).block := by
  have h1 := rectSum_eq (binary_cands (o := o) (NE := NE) (E := E) (coef := coef) (gamma := gamma) (reg := reg) (m := m) (n := n)) E hi
  have h2 := rectSum_eq (binary_cands (o := o) (NE := NE) (E := E) (coef := coef) (gamma := gamma) (reg := reg) (m := m) (n := n)) NE hi
  simp only [binaryProgram, program2D] at *
  rw [h1, h2]

theorem sum_grid {S : Type*} [AddCommMonoid S] (m n : ℕ) (M : ℕ → ℕ → S) :
    ((List.range (m * n)).map (ravel n M)).sum = gridTotal m n M := by
  rcases Nat.eq_zero_or_pos n with rfl | hn
  · simp [gridTotal, Block.total]
  have h := sum_row (t := ⟨0, 0, m, n⟩) (n := n) (by simp) M
  have e : (⟨0, 0, m, n⟩ : Rect).row n = List.range (m * n) := by
    simp only [Rect.row, cachedRectangle, Nat.zero_mul, Nat.zero_add, List.map_id']
    clear h
    induction m with
    | zero => simp
    | succ m ih =>
      rw [List.range_succ, List.flatMap_append, ih, Nat.succ_mul, List.range_add]
      simp [Nat.mul_comm]
  rw [e] at h
  rw [h, gridTotal, Rect.block]
  simp

/-- The value of a bin in the objective. -/
def blockValue (m n : ℕ) (NE E : ℕ → ℕ → ℕ) (coef : ℚ → ℚ → R) (b : Block) : R :=
  coef (((b.total E : ℕ) : ℚ) / ((gridTotal m n E : ℕ) : ℚ)) (((b.total NE : ℕ) : ℚ) / ((gridTotal m n NE : ℕ) : ℚ))

theorem binary_value {i : ℕ} (hi : i < (binaryProgram o m n NE E coef gamma reg).1.length) :
    (binaryProgram o m n NE E coef gamma reg).2.c i =
      blockValue m n NE E coef ((binaryProgram o m n NE E coef gamma reg).1[i]).block := by
  have h1 := rectSum_eq (binary_cands (o := o) (NE := NE) (E := E) (coef := coef) (gamma := gamma) (reg := reg) (m := m) (n := n)) E hi
  have h2 := rectSum_eq (binary_cands (o := o) (NE := NE) (E := E) (coef := coef) (gamma := gamma) (reg := reg) (m := m) (n := n)) NE hi
  simp only [binaryProgram, program2D, blockValue] at *
  rw [h1, h2, sum_grid, sum_grid]

theorem binary_eq : (binaryProgram o m n NE E coef gamma reg).2 =
    program2D m n (binaryProgram o m n NE E coef gamma reg).1 (binaryProgram o m n NE E coef gamma reg).2.er
      (binaryProgram o m n NE E coef gamma reg).2.records (binaryProgram o m n NE E coef gamma reg).2.c gamma
      (binaryProgram o m n NE E coef gamma reg).2.reg := rfl

/-- Every solution is an admissible binning. -/
theorem binary_sound {a : Assign2D R} (h : Feasible2D o (binaryProgram o m n NE E coef gamma reg).2 a) :
    Admissible2D o m n NE E (chosen (binaryProgram o m n NE E coef gamma reg).1 a.x) := by
  rw [binary_eq] at h
  obtain ⟨h1, h2, h3⟩ := chosen_sound binary_cands binary_nodup (rate := blockRate NE E) (fun i hi => binary_rate hi) h
  have hg : ∀ b ∈ chosen (binaryProgram o m n NE E coef gamma reg).1 a.x, GoodBlock o NE E b := by
    intro b hb
    obtain ⟨i, hi, _, rfl⟩ := mem_chosen.1 hb
    exact (binary_mem.1 (List.getElem_mem hi)).2
  exact ⟨h1, fun b hb => ⟨(hg b hb).1, (hg b hb).2.1⟩, fun b hb => (hg b hb).2.2.1, fun b hb => (hg b hb).2.2.2.1,
    fun b hb => (hg b hb).2.2.2.2, h2, h3⟩

theorem admissible_cands {T : Finset Block} (h : Admissible2D o m n NE E T) :
    ∀ b ∈ T, ∃ t ∈ (binaryProgram o m n NE E coef gamma reg).1, t.block = b := by
  intro b hb
  obtain ⟨t, ht, rfl⟩ := exists_rect (h.tiling.1 b hb)
  exact ⟨t, binary_mem.2 ⟨ht, (h.mixed _ hb).1, (h.mixed _ hb).2, h.size _ hb, h.events _ hb, h.nonevents _ hb⟩, rfl⟩

/-- Every admissible binning is a solution. -/
theorem binary_complete {T : Finset Block} (h : Admissible2D o m n NE E T) {s : ℕ}
    (hs : IsSpread (fun b => b.total E + b.total NE) T s) :
    ∃ a, Feasible2D o (binaryProgram o m n NE E coef gamma reg).2 a ∧
      chosen (binaryProgram o m n NE E coef gamma reg).1 a.x = T ∧ a.pmax - a.pmin = (s : R) := by
  rw [binary_eq]
  exact chosen_complete binary_cands binary_nodup (fun i hi => binary_rate hi) (fun i hi => binary_records hi)
    (admissible_cands h) h.tiling h.number h.trends hs

theorem binary_objective {a : Assign2D R} (h : Feasible2D o (binaryProgram o m n NE E coef gamma reg).2 a) :
    objective2D (binaryProgram o m n NE E coef gamma reg).2 a =
      ∑ b ∈ chosen (binaryProgram o m n NE E coef gamma reg).1 a.x, blockValue m n NE E coef b -
        if gamma then (binaryProgram o m n NE E coef gamma reg).2.reg * (a.pmax - a.pmin) else 0 := by
  rw [objective2D]
  congr 1
  exact sum_chosen (c := (binaryProgram o m n NE E coef gamma reg).2.c) binary_nodup (fun i hi => binary_value hi) h.dom.1

end

end OptBinning
