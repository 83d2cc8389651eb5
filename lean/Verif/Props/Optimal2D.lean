import Mathlib.Analysis.SpecialFunctions.Log.Basic
import Mathlib.Data.Set.Finite.Lattice
import Mathlib.Data.Fintype.Pi
import Verif.Props.Binning2D

/-!
# C47: two-dimensional binning of a binary target — optimality
-/
namespace OptBinning

open Spec

set_option linter.unusedSectionVars false

variable {α β : Type} [DecidableEq α] [DecidableEq β] {R : Type} [CommRing R] [LinearOrder R] [IsStrictOrderedRing R]

/-- The binnings of the pre-binning grid which respect the options. -/
def Job2D.Allowed (j : Job2D α β R) (T : Finset Block) : Prop :=
  Admissible2D j.opts j.prepared.m j.prepared.n j.prepared.nonevents j.prepared.events T

/-- Divergence of a binning of the grid: the sum over its bins of `coef` at the shares of events and non-events. -/
def Job2D.divergence (j : Job2D α β R) (T : Finset Block) : R :=
  ∑ b ∈ T, j.coef (share j.prepared.m j.prepared.n j.prepared.events b)
    (share j.prepared.m j.prepared.n j.prepared.nonevents b)

/-- The same computed from the rows of the binning table (bins only). -/
def Job2D.tableDivergence (j : Job2D α β R) : R :=
  let tE := ((j.fit.event.take j.fit.boxes.length).sum : ℕ)
  let tNE := ((j.fit.nonevent.take j.fit.boxes.length).sum : ℕ)
  ∑ i ∈ Finset.range j.fit.boxes.length,
    j.coef (((j.fit.event.getD i 0 : ℕ) : ℚ) / (tE : ℚ)) (((j.fit.nonevent.getD i 0 : ℕ) : ℚ) / (tNE : ℚ))

theorem share_eq {m n : ℕ} {f : ℕ → ℕ → ℕ} {b : Block} :
    share m n f b = ((b.total f : ℕ) : ℚ) / ((gridTotal m n f : ℕ) : ℚ) := by
  rw [share, gridTotal, Block.total, Finset.range_eq_Ico, Finset.range_eq_Ico]
  rfl

theorem divergence_eq (j : Job2D α β R) (T : Finset Block) :
    j.divergence T = ∑ b ∈ T, blockValue j.prepared.m j.prepared.n j.prepared.nonevents j.prepared.events j.coef b := by
  simp only [Job2D.divergence, share_eq, blockValue]

/-- What a successful fit found, as a binning of the grid. -/
theorem Job2D.found (j : Job2D α β R) (h : j.Succeeds) :
    ∃ sel a, Feasible2D j.opts (binaryProgram j.opts j.prepared.m j.prepared.n j.prepared.nonevents j.prepared.events j.coef
        j.gamma j.reg).2 a ∧
      (sel.map Rect.block).toFinset = chosen (binaryProgram j.opts j.prepared.m j.prepared.n j.prepared.nonevents
        j.prepared.events j.coef j.gamma j.reg).1 a.x ∧
      (j.fit.status = "OPTIMAL" → ∀ b, Feasible2D j.opts (binaryProgram j.opts j.prepared.m j.prepared.n
        j.prepared.nonevents j.prepared.events j.coef j.gamma j.reg).2 b →
          objective2D (binaryProgram j.opts j.prepared.m j.prepared.n j.prepared.nonevents j.prepared.events j.coef
            j.gamma j.reg).2 b ≤
          objective2D (binaryProgram j.opts j.prepared.m j.prepared.n j.prepared.nonevents j.prepared.events j.coef
            j.gamma j.reg).2 a) ∧
      Facts2D j.scx j.scy j.opts j.recs j.prepared j.fit sel := by
  obtain ⟨sel, a, ha, hset, hopt, hf⟩ := fit2D_facts (scx := j.scx) (scy := j.scy) (o := j.opts) (coef := j.coef)
    (gamma := j.gamma) (reg := j.reg) (solver := j.solver j.opts) (init := j.init) (recs := j.recs) (p := j.prepared)
    (h.solver _) h.status
  refine ⟨sel, a, ha, hset, fun hs => ?_, hf⟩
  have hv := h.solver (binaryProgram j.opts j.prepared.m j.prepared.n j.prepared.nonevents j.prepared.events j.coef
    j.gamma j.reg).2
  have hst : (j.solver j.opts (binaryProgram j.opts j.prepared.m j.prepared.n j.prepared.nonevents j.prepared.events j.coef
    j.gamma j.reg).2).status = "OPTIMAL" := hs
  generalize hans : j.solver j.opts (binaryProgram j.opts j.prepared.m j.prepared.n j.prepared.nonevents j.prepared.events
    j.coef j.gamma j.reg).2 = ans at hv hst
  cases ans with
  | optimal a' => rw [hopt a' hans] at hv; exact hv.2
  | feasible a' => exact absurd hst (by simp [Answer2D.status])
  | failed s => exact absurd hst hv.1

theorem total_of_tiling {m n : ℕ} {T : Finset Block} (h : IsTiling m n T) (f : ℕ → ℕ → ℕ) :
    ∑ b ∈ T, b.total f = gridTotal m n f := by
  rw [tiling_total h, gridTotal, Block.total, Nat.Ico_zero_eq_range, Nat.Ico_zero_eq_range]

/-- The divergence computed from the table is that of the binning found. -/
theorem tableDivergence_eq {j : Job2D α β R} {sel : List Rect}
    (hf : Facts2D j.scx j.scy j.opts j.recs j.prepared j.fit sel) :
    j.tableDivergence = j.divergence (sel.map Rect.block).toFinset := by
  have hl : j.fit.boxes.length = sel.length := by rw [hf.boxes]; simp
  have tE : (j.fit.event.take j.fit.boxes.length).sum = gridTotal j.prepared.m j.prepared.n j.prepared.events := by
    rw [hf.event, hl, List.take_append_of_le_length (by simp), List.take_of_length_le (by simp),
      sum_sel hf.covers fun b => b.total j.prepared.events]
    exact total_of_tiling hf.admissible.tiling _
  have tNE : (j.fit.nonevent.take j.fit.boxes.length).sum = gridTotal j.prepared.m j.prepared.n j.prepared.nonevents := by
    rw [hf.nonevent, hl, List.take_append_of_le_length (by simp), List.take_of_length_le (by simp),
      sum_sel hf.covers fun b => b.total j.prepared.nonevents]
    exact total_of_tiling hf.admissible.tiling _
  rw [divergence_eq, ← sum_sel hf.covers, Job2D.tableDivergence]
  simp only [tE, tNE]
  have e : (List.range sel.length).toFinset = Finset.range j.fit.boxes.length := by
    ext; simp [hl]
  rw [← e, List.sum_toFinset _ List.nodup_range]
  congr 1
  refine List.ext_getElem (by simp) fun i h1 h2 => ?_
  simp only [List.getElem_map, List.getElem_range]
  have hi : i < sel.length := by simpa using h1
  obtain ⟨e1, e2⟩ := hf.row hi
  rw [e1, e2]
  rfl

/-- **C47.** Without `gamma`: when the solver reports OPTIMAL, no binning of the grid which respects the options has a
larger divergence than the binning returned. -/
theorem C47_optimal (j : Job2D α β R) (h : j.Succeeds) (hs : j.fit.status = "OPTIMAL") (hg : j.gamma = false)
    {T : Finset Block} (hT : j.Allowed T) : j.divergence T ≤ j.tableDivergence := by
  obtain ⟨sel, a, ha, hset, hopt, hf⟩ := j.found h
  obtain ⟨s, hsp⟩ := exists_spread (fun b => b.total j.prepared.events + b.total j.prepared.nonevents)
    (tiling_nonempty (Nat.succ_pos _) (Nat.succ_pos _) hT.tiling)
  obtain ⟨a', ha', hch, _⟩ := binary_complete (R := R) (coef := j.coef) (gamma := j.gamma) (reg := j.reg) hT hsp
  have key := hopt hs a' ha'
  rw [binary_objective ha', binary_objective ha, hch, ← hset] at key
  rw [tableDivergence_eq hf, divergence_eq, divergence_eq]
  simpa [hg] using key

/-- The size of a bin of the grid. -/
def Job2D.size (j : Job2D α β R) (b : Block) : ℕ := b.total j.prepared.events + b.total j.prepared.nonevents

/-- The weight of the spread in the objective (`gamma / total_records` for MIP, `int(gamma * 1e6 / total_records)` for CP):
`total_records` is the sum of the sizes of all candidate rectangles. -/
def Job2D.weight (j : Job2D α β R) : R :=
  (binaryProgram j.opts j.prepared.m j.prepared.n j.prepared.nonevents j.prepared.events j.coef j.gamma j.reg).2.reg

/-- **C47.** With `gamma`: when the solver reports OPTIMAL, the binning returned maximises the divergence minus the weighted
difference between the largest and the smallest bin. -/
theorem C47_optimal_gamma (j : Job2D α β R) (h : j.Succeeds) (hs : j.fit.status = "OPTIMAL") (hg : j.gamma = true)
    (hw : 0 ≤ j.weight) :
    ∃ s : ℕ, (∃ a < j.fit.boxes.length, ∃ b < j.fit.boxes.length,
        (∀ i < j.fit.boxes.length, j.fit.count b ≤ j.fit.count i ∧ j.fit.count i ≤ j.fit.count a) ∧
          j.fit.count b + s = j.fit.count a) ∧
      ∀ T, j.Allowed T → ∀ t, IsSpread j.size T t →
        j.divergence T - j.weight * (t : R) ≤ j.tableDivergence - j.weight * (s : R) := by
  obtain ⟨sel, a, ha, hset, hopt, hf⟩ := j.found h
  have hl : j.fit.boxes.length = sel.length := by rw [hf.boxes]; simp
  obtain ⟨s, hsp⟩ := exists_spread j.size (tiling_nonempty (Nat.succ_pos _) (Nat.succ_pos _) hf.admissible.tiling)
  have hsize : ∀ (i : ℕ) (hi : i < sel.length), j.fit.count i = j.size sel[i].block := by
    intro i hi
    obtain ⟨e1, e2⟩ := hf.row hi
    rw [Fitted2D.count, e1, e2, Job2D.size]
  have mem : ∀ b ∈ (sel.map Rect.block).toFinset, ∃ (i : ℕ) (hi : i < sel.length), sel[i].block = b := by
    intro b hb
    rw [List.mem_toFinset, List.mem_map] at hb
    obtain ⟨t, ht, rfl⟩ := hb
    obtain ⟨i, hi, rfl⟩ := List.getElem_of_mem ht
    exact ⟨i, hi, rfl⟩
  have mem' : ∀ (i : ℕ) (hi : i < sel.length), sel[i].block ∈ (sel.map Rect.block).toFinset := by
    intro i hi
    rw [List.mem_toFinset]
    exact List.mem_map_of_mem (List.getElem_mem hi)
  refine ⟨s, ?_, ?_⟩
  · obtain ⟨big, hbig, small, hsmall, hall, hs⟩ := hsp
    obtain ⟨k, hk, rfl⟩ := mem _ hbig
    obtain ⟨l, hl', rfl⟩ := mem _ hsmall
    refine ⟨k, by omega, l, by omega, fun i hi => ?_, ?_⟩
    · rw [hsize i (by omega), hsize k hk, hsize l hl']
      exact hall _ (mem' i (by omega))
    · rw [hsize k hk, hsize l hl']
      exact hs
  · intro T hT t ht
    obtain ⟨a', ha', hch, hd⟩ := binary_complete (R := R) (coef := j.coef) (gamma := j.gamma) (reg := j.reg) hT ht
    have key := hopt hs a' ha'
    rw [binary_objective ha', binary_objective ha, hch, ← hset, hd] at key
    have hle : (s : R) ≤ a.pmax - a.pmin := by
      rw [binary_eq, hg] at ha
      rw [hg] at hset
      rw [hset] at hsp
      exact spread_le (size := j.size) (fun i hi => by rw [binary_records hi]; rfl) ha hsp
    rw [tableDivergence_eq hf, divergence_eq, divergence_eq]
    simp only [hg, if_true] at key
    have hm : j.weight * (s : R) ≤ j.weight * (a.pmax - a.pmin) := mul_le_mul_of_nonneg_left hle hw
    simp only [Job2D.weight, hg] at hm ⊢
    linarith

/-- **C47.** When the solver reports INFEASIBLE, no binning of the grid respects the options. -/
theorem C47_infeasible (j : Job2D α β R) (hv : ∀ p, (j.solver j.opts p).Valid j.opts p)
    (hs : j.fit.status = "INFEASIBLE") (T : Finset Block) : ¬ j.Allowed T := by
  intro hT
  obtain ⟨s, hsp⟩ := exists_spread (fun b => b.total j.prepared.events + b.total j.prepared.nonevents)
    (tiling_nonempty (Nat.succ_pos _) (Nat.succ_pos _) hT.tiling)
  obtain ⟨a', ha', _, _⟩ := binary_complete (R := R) (coef := j.coef) (gamma := j.gamma) (reg := j.reg) hT hsp
  have hv := hv (binaryProgram j.opts j.prepared.m j.prepared.n j.prepared.nonevents j.prepared.events j.coef
    j.gamma j.reg).2
  have hst : (j.solver j.opts (binaryProgram j.opts j.prepared.m j.prepared.n j.prepared.nonevents j.prepared.events j.coef
    j.gamma j.reg).2).status = "INFEASIBLE" := hs
  generalize hans : j.solver j.opts (binaryProgram j.opts j.prepared.m j.prepared.n j.prepared.nonevents j.prepared.events
    j.coef j.gamma j.reg).2 = ans at hv hst
  cases ans with
  | optimal a' => exact absurd hst (by simp [Answer2D.status])
  | feasible a' => exact absurd hst (by simp [Answer2D.status])
  | failed s => exact hv.2.2 hst a' ha'

/-- **C47.** The binning returned is one of those allowed: its bins are the boxes of an allowed binning of the grid. -/
theorem C47_allowed (j : Job2D α β R) (h : j.Succeeds) :
    ∃ sel : List Block, sel.Nodup ∧ j.Allowed sel.toFinset ∧
      j.fit.boxes = sel.map (boxOf j.prepared.splitsX j.prepared.splitsY) ∧
      j.tableDivergence = j.divergence sel.toFinset := by
  obtain ⟨sel, hf⟩ := j.facts h
  refine ⟨sel.map Rect.block, hf.covers.nodup.map Rect.block_injective, hf.admissible, ?_, tableDivergence_eq hf⟩
  rw [hf.boxes, List.map_map]
  rfl

/-! ### The divergences of `OptimalBinning2D` -/

/-- model_data_2d.py:151-158: the argument `divergence`. -/
inductive Divergence2D | iv | js | hellinger | triangular
deriving DecidableEq

noncomputable def Divergence2D.eval (d : Divergence2D) (p q : ℚ) : ℝ :=
  match d with
  | .iv => jeffrey p q
  | .js => jensenShannon p q
  | .hellinger => OptBinning.hellinger p q
  | .triangular => OptBinning.triangular p q

/-- model_data_2d.py:160-161 with `scale = int(1e6)` (binning_2d.py:843-848): the integer coefficients of the CP model
(`astype(int)` cuts off the fraction). -/
noncomputable def cpCoef (d : Divergence2D) (p q : ℚ) : ℤ :=
  if 0 ≤ d.eval p q * 1000000 then ⌊d.eval p q * 1000000⌋ else ⌈d.eval p q * 1000000⌉

theorem Divergence2D.nonneg (d : Divergence2D) {p q : ℚ} (hp : 0 < p) (hq : 0 < q) : 0 ≤ d.eval p q := by
  have hp' : (0 : ℝ) < p := by exact_mod_cast hp
  have hq' : (0 : ℝ) < q := by exact_mod_cast hq
  have kl : ∀ {x m : ℝ}, 0 < x → 0 < m → x - m ≤ kullbackLeibler x m := by
    intro x m hx hm
    have h := Real.one_sub_inv_le_log_of_pos (div_pos hx hm)
    rw [inv_div] at h
    rw [kullbackLeibler, xlogy, if_neg hx.ne']
    have := mul_le_mul_of_nonneg_left h hx.le
    have e : x * (1 - m / x) = x - m := by field_simp
    linarith
  cases d with
  | iv =>
    simp only [Divergence2D.eval, jeffrey, xlogy]
    split_ifs with h0
    · exact le_rfl
    rcases le_total (p : ℝ) q with h | h
    · have : Real.log ((p : ℝ) / q) ≤ 0 := Real.log_nonpos (by positivity) ((div_le_one hq').2 h)
      nlinarith
    · have : 0 ≤ Real.log ((p : ℝ) / q) := Real.log_nonneg ((one_le_div hq').2 h)
      nlinarith
  | js =>
    simp only [Divergence2D.eval, jensenShannon]
    have h1 := kl hp' (show (0 : ℝ) < (p + q) / 2 by linarith)
    have h2 := kl hq' (show (0 : ℝ) < (p + q) / 2 by linarith)
    linarith
  | hellinger => simp only [Divergence2D.eval, OptBinning.hellinger]; positivity
  | triangular => simp only [Divergence2D.eval, OptBinning.triangular]; positivity

/-- **C47.** The CP solver works with integers: the divergence of the binning returned with status OPTIMAL is smaller than
that of any allowed binning with `k` bins by at most `k` millionths. -/
theorem C47_cp_gap (j : Job2D α β ℤ) (d : Divergence2D) (hd : j.coef = cpCoef d) (h : j.Succeeds)
    (hs : j.fit.status = "OPTIMAL") (hg : j.gamma = false) {T : Finset Block} (hT : j.Allowed T) :
    ∑ b ∈ T, d.eval (share j.prepared.m j.prepared.n j.prepared.events b)
        (share j.prepared.m j.prepared.n j.prepared.nonevents b) ≤
      ∑ i ∈ Finset.range j.fit.boxes.length,
        d.eval (((j.fit.event.getD i 0 : ℕ) : ℚ) / (((j.fit.event.take j.fit.boxes.length).sum : ℕ) : ℚ))
          (((j.fit.nonevent.getD i 0 : ℕ) : ℚ) / (((j.fit.nonevent.take j.fit.boxes.length).sum : ℕ) : ℚ)) +
      (T.card : ℝ) / 1000000 := by
  have key := C47_optimal j h hs hg hT
  obtain ⟨hlim, _⟩ := C45_limits j h
  have floor : ∀ {p q : ℚ}, 0 < p → 0 < q → (cpCoef d p q : ℝ) ≤ d.eval p q * 1000000 ∧
      d.eval p q * 1000000 < (cpCoef d p q : ℝ) + 1 := by
    intro p q hp hq
    have hn := d.nonneg hp hq
    rw [cpCoef, if_pos (by positivity)]
    exact ⟨Int.floor_le _, Int.lt_floor_add_one _⟩
  have up : j.divergence T + (T.card : ℝ) ≥ (∑ b ∈ T, d.eval (share j.prepared.m j.prepared.n j.prepared.events b)
        (share j.prepared.m j.prepared.n j.prepared.nonevents b)) * 1000000 := by
    rw [Job2D.divergence, hd, Finset.sum_mul]
    push_cast
    rw [Finset.card_eq_sum_ones, Nat.cast_sum, ← Finset.sum_add_distrib]
    refine Finset.sum_le_sum fun b hb => ?_
    have hm := hT.mixed b hb
    have pos : ∀ f : ℕ → ℕ → ℕ, 0 < b.total f → 0 < share j.prepared.m j.prepared.n f b := by
      intro f hf
      rw [share_eq]
      have hle : b.total f ≤ gridTotal j.prepared.m j.prepared.n f := by
        rw [← total_of_tiling hT.tiling f]
        exact Finset.single_le_sum (f := fun b : Block => b.total f) (fun _ _ => Nat.zero_le _) hb
      have h1 : (0 : ℚ) < ((b.total f : ℕ) : ℚ) := by exact_mod_cast hf
      have h2 : (0 : ℚ) < ((gridTotal j.prepared.m j.prepared.n f : ℕ) : ℚ) := by exact_mod_cast hf.trans_le hle
      exact div_pos h1 h2
    have := (floor (pos _ hm.1) (pos _ hm.2)).2
    push_cast
    linarith
  have down : (j.tableDivergence : ℝ) ≤ (∑ i ∈ Finset.range j.fit.boxes.length,
        d.eval (((j.fit.event.getD i 0 : ℕ) : ℚ) / (((j.fit.event.take j.fit.boxes.length).sum : ℕ) : ℚ))
          (((j.fit.nonevent.getD i 0 : ℕ) : ℚ) / (((j.fit.nonevent.take j.fit.boxes.length).sum : ℕ) : ℚ))) * 1000000 := by
    rw [Job2D.tableDivergence, hd, Finset.sum_mul, Int.cast_sum]
    refine Finset.sum_le_sum fun i hi => ?_
    have hi' := Finset.mem_range.1 hi
    have hl := hlim i hi'
    have pos : ∀ l : List ℕ, 0 < l.getD i 0 →
        (0 : ℚ) < ((l.getD i 0 : ℕ) : ℚ) / (((l.take j.fit.boxes.length).sum : ℕ) : ℚ) := by
      intro l hl
      have hil : i < l.length := by
        by_contra hc
        rw [List.getD_eq_default _ _ (by omega)] at hl
        omega
      have hle : l.getD i 0 ≤ (l.take j.fit.boxes.length).sum := by
        rw [List.getD_eq_getElem _ _ hil]
        refine List.le_sum_of_mem ?_
        rw [List.mem_take_iff_getElem]
        exact ⟨i, by omega, rfl⟩
      have h1 : (0 : ℚ) < ((l.getD i 0 : ℕ) : ℚ) := by exact_mod_cast hl
      have h2 : (0 : ℚ) < (((l.take j.fit.boxes.length).sum : ℕ) : ℚ) := by exact_mod_cast hl.trans_le hle
      exact div_pos h1 h2
    exact (floor (pos _ hl.1) (pos _ hl.2.1)).1
  have key' : (j.divergence T : ℝ) ≤ (j.tableDivergence : ℝ) := by exact_mod_cast key
  linarith

/-! ### Non-vacuity -/

/-- Over the integers a feasible program has an optimal solution. -/
theorem exists_optimal {o : Opts2D} {p : Prog2D ℤ} (h : ∃ a, Feasible2D o p a) : ∃ a, (Answer2D.optimal a).Valid o p := by
  let V : Set ℤ := {v | ∃ a, Feasible2D o p a ∧ objective2D p a = v}
  have hfin : V.Finite := by
    let F : (Fin p.nRect → Fin 2) × Finset.Icc (-(p.totalRecords : ℤ)) p.totalRecords → ℤ := fun q =>
      ((List.range p.nRect).map fun i => p.c i * (if hi : i < p.nRect then ((q.1 ⟨i, hi⟩ : ℕ) : ℤ) else 0)).sum -
        if p.gamma then p.reg * q.2 else 0
    refine (Set.finite_range F).subset ?_
    rintro v ⟨a, ha, rfl⟩
    have hx := ha.dom.1
    have e : ((List.range p.nRect).map fun i => p.c i * (if hi : i < p.nRect then
        (((if a.x i = 0 then 0 else 1 : Fin 2) : ℕ) : ℤ) else 0)) = (List.range p.nRect).map fun i => p.c i * ((a.x i : ℤ) : ℤ) := by
      refine List.map_congr_left fun i hi => ?_
      have hi' := List.mem_range.1 hi
      rw [dif_pos hi']
      rcases hx i hi' with h | h <;> simp [h]
    cases hg : p.gamma with
    | false =>
      refine ⟨(fun i => if a.x i = 0 then 0 else 1, ⟨0, by simp⟩), ?_⟩
      simp only [F, hg, objective2D]
      rw [e]
      rfl
    | true =>
      have hd := ha.dom.2.2 hg
      refine ⟨(fun i => if a.x i = 0 then 0 else 1, ⟨a.pmax - a.pmin, ?_⟩), ?_⟩
      · rw [Finset.mem_Icc]
        have h1 : a.pmax ≤ (p.totalRecords : ℤ) := hd.2.1
        have h2 : a.pmin ≤ (p.totalRecords : ℤ) := hd.2.2.2
        omega
      · simp only [F, hg, objective2D, if_true]
        rw [e]
        rfl
  obtain ⟨a, ha⟩ := h
  obtain ⟨v, ⟨b, hb, rfl⟩, hmax⟩ := Set.exists_max_image V id hfin ⟨_, a, ha, rfl⟩
  exact ⟨b, hb, fun c hc => hmax _ ⟨c, hc, rfl⟩⟩

open Classical in
/-- A solver which keeps its contract and always decides. -/
noncomputable def idealSolver (o : Opts2D) (p : Prog2D ℤ) : Answer2D ℤ :=
  if h : ∃ a, (Answer2D.optimal a).Valid o p then .optimal h.choose else .failed "INFEASIBLE"

theorem idealSolver_valid (o : Opts2D) (p : Prog2D ℤ) : (idealSolver o p).Valid o p := by
  unfold idealSolver
  split_ifs with h
  · exact h.choose_spec
  · exact ⟨by decide, by decide, fun _ a ha => h (exists_optimal ⟨a, ha⟩)⟩

theorem idealSolver_optimal {o : Opts2D} {p : Prog2D ℤ} (h : ∃ a, Feasible2D o p a) :
    (idealSolver o p).status = "OPTIMAL" := by
  unfold idealSolver
  rw [dif_pos (exists_optimal h)]
  rfl

theorem idealSolver_infeasible {o : Opts2D} {p : Prog2D ℤ} (h : ¬ ∃ a, Feasible2D o p a) :
    (idealSolver o p).status = "INFEASIBLE" := by
  unfold idealSolver
  rw [dif_neg fun ⟨a, ha⟩ => h ⟨a, ha.1⟩]
  rfl

end OptBinning
