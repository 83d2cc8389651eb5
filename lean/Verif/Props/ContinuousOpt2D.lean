import Verif.Props.Continuous2D
import Verif.Props.Optimal2D

/-!
# C90: two-dimensional binning of a continuous target — optimality
-/
namespace OptBinning

open Spec

set_option linter.unusedSectionVars false

variable {α β : Type} [DecidableEq α] [DecidableEq β] {Q : Type} [CommRing Q] [LinearOrder Q] [IsStrictOrderedRing Q]

/-- The binnings of the pre-binning grid which respect the options. -/
def JobC2D.Allowed (j : JobC2D α β Q) (T : Finset Block) : Prop :=
  AdmissibleMean2D j.opts j.prepared.m j.prepared.n j.prepared.records j.prepared.sums T

/-- The mean of the targets of all clean training records. -/
noncomputable def JobC2D.overallMean (j : JobC2D α β Q) : ℚ :=
  Spec.mean (knownTargets j.recs fun r => ¬ RecMissing r ∧ ¬ RecSpecial j.scx j.scy r)

/-- The value of a binning of the grid: the sum over its bins of `coef` at the distance of the mean of the bin from the
overall mean. -/
noncomputable def JobC2D.value (j : JobC2D α β Q) (T : Finset Block) : Q :=
  ∑ b ∈ T, j.coef |blockMean j.prepared.records j.prepared.sums b - j.overallMean|

/-- The value of the bins returned. -/
noncomputable def JobC2D.fitValue (j : JobC2D α β Q) : Q :=
  ∑ i ∈ Finset.range j.fit.boxes.length, j.coef |j.binMean i - j.overallMean|

theorem clean_all (j : JobC2D α β Q) : j.prepared.clean.map (fun r => r.2.2) =
    knownTargets j.recs fun r => ¬ RecMissing r ∧ ¬ RecSpecial j.scx j.scy r := by
  classical
  have := clean_targets j.scx j.scy j.recs fun _ _ => True
  simp only [decide_true, List.filter_true] at this
  have e : j.prepared.clean = clean2D j.scx j.scy j.recs := rfl
  rw [e, this]
  congr 1
  funext r
  refine propext ⟨fun h => ⟨h.1, h.2.1⟩, fun h => ⟨h.1, h.2, ?_⟩⟩
  have h1 := h.1
  obtain ⟨x, y, z⟩ := r
  rcases x with _ | u
  · exact absurd (Or.inl rfl) h1
  rcases y with _ | v
  · exact absurd (Or.inr (Or.inl rfl)) h1
  exact ⟨u, v, rfl, rfl, trivial⟩

theorem gridMean_eq (j : JobC2D α β Q) :
    gridMean j.prepared.m j.prepared.n j.prepared.records j.prepared.sums = j.overallMean := by
  have inAll : ∀ r ∈ j.prepared.clean, (Block.mk 0 j.prepared.m 0 j.prepared.n).Mem (j.prepared.row r.2.1) (j.prepared.col r.1) :=
    fun r _ => ⟨Nat.zero_le _, j.prepared.row_lt _, Nat.zero_le _, j.prepared.col_lt _⟩
  have hall : (j.prepared.clean.filter fun r => decide ((Block.mk 0 j.prepared.m 0 j.prepared.n).Mem (j.prepared.row r.2.1)
      (j.prepared.col r.1))) = j.prepared.clean := List.filter_eq_self.2 fun r hr => by simpa using inAll r hr
  have e1 := cell_count j.prepared ⟨0, j.prepared.m, 0, j.prepared.n⟩
  have e2 := cell_total j.prepared id ⟨0, j.prepared.m, 0, j.prepared.n⟩
  rw [hall] at e1 e2
  simp only [List.map_id, id] at e2
  rw [JobC2D.overallMean, ← clean_all, Spec.mean, gridMean, gridTotal, gridTotal, e1, List.length_map, ← e2]
  rfl

/-- What a successful fit found, as a binning of the grid. -/
theorem JobC2D.found (j : JobC2D α β Q) (h : j.Succeeds) :
    ∃ sel a, Feasible2D j.opts (continuousProgram j.opts j.prepared.m j.prepared.n j.prepared.records j.prepared.sums j.coef
        j.gamma j.reg).2 a ∧
      (sel.map Rect.block).toFinset = chosen (continuousProgram j.opts j.prepared.m j.prepared.n j.prepared.records
        j.prepared.sums j.coef j.gamma j.reg).1 a.x ∧
      (j.fit.status = "OPTIMAL" → ∀ b, Feasible2D j.opts (continuousProgram j.opts j.prepared.m j.prepared.n
        j.prepared.records j.prepared.sums j.coef j.gamma j.reg).2 b →
          objective2D (continuousProgram j.opts j.prepared.m j.prepared.n j.prepared.records j.prepared.sums j.coef
            j.gamma j.reg).2 b ≤
          objective2D (continuousProgram j.opts j.prepared.m j.prepared.n j.prepared.records j.prepared.sums j.coef
            j.gamma j.reg).2 a) ∧
      FactsC2D j.scx j.scy j.opts j.recs j.init j.prepared j.fit sel := by
  obtain ⟨sel, a, ha, hset, hopt, hf⟩ := fitC2D_facts (scx := j.scx) (scy := j.scy) (o := j.opts) (coef := j.coef)
    (gamma := j.gamma) (reg := j.reg) (solver := j.solver j.opts) (init := j.init) (recs := j.recs) (p := j.prepared)
    (h.solver _) h.status
  refine ⟨sel, a, ha, hset, fun hs => ?_, hf⟩
  have hv := h.solver (continuousProgram j.opts j.prepared.m j.prepared.n j.prepared.records j.prepared.sums j.coef
    j.gamma j.reg).2
  have hst : (j.solver j.opts (continuousProgram j.opts j.prepared.m j.prepared.n j.prepared.records j.prepared.sums j.coef
    j.gamma j.reg).2).status = "OPTIMAL" := hs
  generalize hans : j.solver j.opts (continuousProgram j.opts j.prepared.m j.prepared.n j.prepared.records j.prepared.sums
    j.coef j.gamma j.reg).2 = ans at hv hst
  cases ans with
  | optimal a' => rw [hopt a' hans] at hv; exact hv.2
  | feasible a' => exact absurd hst (by simp [Answer2D.status])
  | failed s => exact absurd hst hv.1

theorem fitValue_eq {j : JobC2D α β Q} {sel : List Rect} (hw : j.prepared.WellFormed)
    (hf : FactsC2D j.scx j.scy j.opts j.recs j.init j.prepared j.fit sel) :
    j.fitValue = j.value (sel.map Rect.block).toFinset := by
  rw [JobC2D.fitValue, JobC2D.value, ← sum_sel hf.geo.covers fun b =>
    j.coef |blockMean j.prepared.records j.prepared.sums b - j.overallMean|]
  have hl := hf.geo.length
  have e : (List.range sel.length).toFinset = Finset.range j.fit.boxes.length := by
    ext; simp [hl]
  rw [← e, List.sum_toFinset _ List.nodup_range]
  congr 1
  refine List.ext_getElem (by simp) fun i h1 h2 => ?_
  simp only [List.getElem_map, List.getElem_range]
  rw [hf.binMean hw i (by simpa using h1)]

/-- **C90.** Without `gamma`: when the solver reports OPTIMAL, no binning of the grid which respects the options has a
larger sum of distances between the means of its bins and the overall mean than the binning returned. -/
theorem C90_optimal (j : JobC2D α β Q) (h : j.Succeeds) (hs : j.fit.status = "OPTIMAL") (hg : j.gamma = false)
    {T : Finset Block} (hT : j.Allowed T) : j.value T ≤ j.fitValue := by
  obtain ⟨sel, a, ha, hset, hopt, hf⟩ := j.found h
  obtain ⟨s, hsp⟩ := exists_spread (fun b => b.total j.prepared.records)
    (tiling_nonempty (Nat.succ_pos _) (Nat.succ_pos _) hT.tiling)
  obtain ⟨a', ha', hch, _⟩ := cont_complete (Q := Q) (coef := j.coef) (gamma := j.gamma) (reg := j.reg) hT hsp
  have key := hopt hs a' ha'
  rw [cont_objective ha', cont_objective ha, hch, ← hset, gridMean_eq] at key
  rw [fitValue_eq h.wellFormed hf, JobC2D.value, JobC2D.value]
  simpa [hg] using key

/-- The weight of the spread in the objective: `total_records` is the sum of the sizes of all candidate rectangles. -/
def JobC2D.weight (j : JobC2D α β Q) : Q :=
  (continuousProgram j.opts j.prepared.m j.prepared.n j.prepared.records j.prepared.sums j.coef j.gamma j.reg).2.reg

/-- **C90.** With `gamma`: when the solver reports OPTIMAL, the binning returned maximises the value minus the weighted
difference between the sizes of the largest and of the smallest bin. -/
theorem C90_optimal_gamma (j : JobC2D α β Q) (h : j.Succeeds) (hs : j.fit.status = "OPTIMAL") (hg : j.gamma = true)
    (hw : 0 ≤ j.weight) :
    ∃ s : ℕ, (∃ (a : ℕ) (ha : a < j.fit.boxes.length) (b : ℕ) (hb : b < j.fit.boxes.length),
        (∀ i (hi : i < j.fit.boxes.length), (j.binTargets b hb).length ≤ (j.binTargets i hi).length ∧
          (j.binTargets i hi).length ≤ (j.binTargets a ha).length) ∧
          (j.binTargets b hb).length + s = (j.binTargets a ha).length) ∧
      ∀ T, j.Allowed T → ∀ t, IsSpread (fun b => b.total j.prepared.records) T t →
        j.value T - j.weight * (t : Q) ≤ j.fitValue - j.weight * (s : Q) := by
  obtain ⟨sel, a, ha, hset, hopt, hf⟩ := j.found h
  have hl := hf.geo.length
  obtain ⟨s, hsp⟩ := exists_spread (fun b => b.total j.prepared.records)
    (tiling_nonempty (Nat.succ_pos _) (Nat.succ_pos _) hf.admissible.tiling)
  have mem : ∀ b ∈ (sel.map Rect.block).toFinset, ∃ (i : ℕ) (hi : i < sel.length), sel[i].block = b := by
    intro b hb
    rw [List.mem_toFinset, List.mem_map] at hb
    obtain ⟨t, ht, rfl⟩ := hb
    obtain ⟨i, hi, rfl⟩ := List.getElem_of_mem ht
    exact ⟨i, hi, rfl⟩
  refine ⟨s, ?_, ?_⟩
  · obtain ⟨big, hbig, small, hsmall, hall, hs⟩ := hsp
    obtain ⟨k, hk, rfl⟩ := mem _ hbig
    obtain ⟨l, hl', rfl⟩ := mem _ hsmall
    have e : ∀ (i : ℕ) (hi : i < sel.length) (hi' : i < j.fit.boxes.length),
        (j.binTargets i hi').length = sel[i].block.total j.prepared.records :=
      fun i hi hi' => (hf.totals h.wellFormed hi hi').1.symm
    refine ⟨k, by omega, l, by omega, fun i hi => ?_, ?_⟩
    · rw [e i (by omega), e k hk, e l hl']
      exact hall _ (Geo.mem (by omega))
    · rw [e k hk, e l hl']
      exact hs
  · intro T hT t ht
    obtain ⟨a', ha', hch, hd⟩ := cont_complete (Q := Q) (coef := j.coef) (gamma := j.gamma) (reg := j.reg) hT ht
    have key := hopt hs a' ha'
    rw [cont_objective ha', cont_objective ha, hch, ← hset, hd, gridMean_eq] at key
    have hle : (s : Q) ≤ a.pmax - a.pmin := by
      rw [cont_eq, hg] at ha
      rw [hg] at hset
      rw [hset] at hsp
      exact spread_le (size := fun b => b.total j.prepared.records) (fun i hi => by rw [cont_records hi]) ha hsp
    rw [fitValue_eq h.wellFormed hf, JobC2D.value, JobC2D.value]
    simp only [hg, if_true] at key
    have hm : j.weight * (s : Q) ≤ j.weight * (a.pmax - a.pmin) := mul_le_mul_of_nonneg_left hle hw
    simp only [JobC2D.weight, hg] at hm ⊢
    linarith

/-- **C90.** When the solver reports INFEASIBLE, no binning of the grid respects the options. -/
theorem C90_infeasible (j : JobC2D α β Q) (hv : ∀ p, (j.solver j.opts p).Valid j.opts p)
    (hs : j.fit.status = "INFEASIBLE") (T : Finset Block) : ¬ j.Allowed T := by
  intro hT
  obtain ⟨s, hsp⟩ := exists_spread (fun b => b.total j.prepared.records)
    (tiling_nonempty (Nat.succ_pos _) (Nat.succ_pos _) hT.tiling)
  obtain ⟨a', ha', _, _⟩ := cont_complete (Q := Q) (coef := j.coef) (gamma := j.gamma) (reg := j.reg) hT hsp
  have hv := hv (continuousProgram j.opts j.prepared.m j.prepared.n j.prepared.records j.prepared.sums j.coef
    j.gamma j.reg).2
  have hst : (j.solver j.opts (continuousProgram j.opts j.prepared.m j.prepared.n j.prepared.records j.prepared.sums j.coef
    j.gamma j.reg).2).status = "INFEASIBLE" := hs
  generalize hans : j.solver j.opts (continuousProgram j.opts j.prepared.m j.prepared.n j.prepared.records j.prepared.sums
    j.coef j.gamma j.reg).2 = ans at hv hst
  cases ans with
  | optimal a' => exact absurd hst (by simp [Answer2D.status])
  | feasible a' => exact absurd hst (by simp [Answer2D.status])
  | failed s => exact hv.2.2 hst a' ha'

/-- **C90.** The binning returned is one of those allowed. -/
theorem C90_allowed (j : JobC2D α β Q) (h : j.Succeeds) :
    ∃ sel : List Block, sel.Nodup ∧ j.Allowed sel.toFinset ∧
      j.fit.boxes = sel.map (boxOf j.prepared.splitsX j.prepared.splitsY) ∧ j.fitValue = j.value sel.toFinset := by
  obtain ⟨sel, hf⟩ := j.facts h
  refine ⟨sel.map Rect.block, hf.geo.covers.nodup.map Rect.block_injective, hf.admissible, ?_, fitValue_eq h.wellFormed hf⟩
  rw [hf.geo.boxes, List.map_map]
  rfl

/-- model_data_2d.py:259-260 with `scale = int(1e6)`: the integer coefficients of the CP model. -/
def cpDistance (d : ℚ) : ℤ := if 0 ≤ d * 1000000 then ⌊d * 1000000⌋ else ⌈d * 1000000⌉

/-- **C90.** The CP solver works with integers: the sum of distances of the binning returned with status OPTIMAL is smaller
than that of any allowed binning with `k` bins by at most `k` millionths. -/
theorem C90_cp_gap (j : JobC2D α β ℤ) (hd : j.coef = cpDistance) (h : j.Succeeds)
    (hs : j.fit.status = "OPTIMAL") (hg : j.gamma = false) {T : Finset Block} (hT : j.Allowed T) :
    ∑ b ∈ T, |blockMean j.prepared.records j.prepared.sums b - j.overallMean| ≤
      ∑ i ∈ Finset.range j.fit.boxes.length, |j.binMean i - j.overallMean| + (T.card : ℚ) / 1000000 := by
  have key := C90_optimal j h hs hg hT
  have floor : ∀ {d : ℚ}, 0 ≤ d → (cpDistance d : ℚ) ≤ d * 1000000 ∧ d * 1000000 ≤ (cpDistance d : ℚ) + 1 := by
    intro d hn
    rw [cpDistance, if_pos (by positivity)]
    exact ⟨Int.floor_le _, (Int.lt_floor_add_one _).le⟩
  have up : (∑ b ∈ T, |blockMean j.prepared.records j.prepared.sums b - j.overallMean|) * 1000000 ≤
      ((j.value T : ℤ) : ℚ) + (T.card : ℚ) := by
    rw [JobC2D.value, hd, Finset.sum_mul, Finset.card_eq_sum_ones, Nat.cast_sum, Int.cast_sum, ← Finset.sum_add_distrib]
    refine Finset.sum_le_sum fun b _ => ?_
    have := (floor (abs_nonneg (blockMean j.prepared.records j.prepared.sums b - j.overallMean))).2
    push_cast
    exact this
  have down : ((j.fitValue : ℤ) : ℚ) ≤
      (∑ i ∈ Finset.range j.fit.boxes.length, |j.binMean i - j.overallMean|) * 1000000 := by
    rw [JobC2D.fitValue, hd, Finset.sum_mul, Int.cast_sum]
    exact Finset.sum_le_sum fun i _ => (floor (abs_nonneg _)).1
  have key' : ((j.value T : ℤ) : ℚ) ≤ ((j.fitValue : ℤ) : ℚ) := by exact_mod_cast key
  linarith

end OptBinning
