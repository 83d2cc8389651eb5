import Verif.Props.Continuous2D

/-!
# C92: the number of refinements of a two-dimensional binning
-/
namespace OptBinning

open Spec

set_option linter.unusedSectionVars false

theorem sum_range_sub (m : ℕ) : 2 * ((List.range m).map fun i => m - i).sum = m * (m + 1) := by
  induction m with
  | zero => rfl
  | succ m ih =>
    rw [List.range_succ_eq_map, List.map_cons, List.map_map, List.sum_cons]
    have e : ((fun i => m + 1 - i) ∘ Nat.succ) = fun i => m - i := by
      funext i; simp only [Function.comp, Nat.succ_eq_add_one]; omega
    rw [e, Nat.mul_add, ih, Nat.sub_zero]
    ring

theorem length_allRects (m n : ℕ) : (allRects m n).length = m * n * (m + 1) * (n + 1) / 4 := by
  have h : (allRects m n).length = ((List.range m).map fun i => m - i).sum * ((List.range n).map fun j => n - j).sum := by
    simp only [allRects, List.length_flatMap, List.length_map, List.length_range, List.map_const', List.sum_replicate, smul_eq_mul]
    rw [← List.sum_map_mul_right]
    congr 1
    refine List.map_congr_left fun i _ => ?_
    rw [← List.sum_map_mul_left]
  have e : 4 * (allRects m n).length = m * n * (m + 1) * (n + 1) := by
    have h1 := sum_range_sub m
    have h2 := sum_range_sub n
    rw [h]
    calc 4 * (((List.range m).map fun i => m - i).sum * ((List.range n).map fun j => n - j).sum)
        = (2 * ((List.range m).map fun i => m - i).sum) * (2 * ((List.range n).map fun j => n - j).sum) := by ring
      _ = m * n * (m + 1) * (n + 1) := by rw [h1, h2]; ring
  omega

/-- Blocks of the grid which do not satisfy `q` are as many as the blocks minus the candidates. -/
theorem refinements_eq (m n : ℕ) (keep : List ℕ → Bool) (q : Block → Prop)
    (hq : ∀ t, t ∈ candidates m n keep ↔ t ∈ allRects m n ∧ q t.block) :
    m * n * (m + 1) * (n + 1) / 4 - (candidates m n keep).length = {b : Block | b.Inside m n ∧ ¬ q b}.ncard := by
  classical
  have hset : {b : Block | b.Inside m n ∧ ¬ q b} =
      ((((allRects m n).filter fun t => !keep (t.row n)).toFinset.image Rect.block : Finset Block) : Set Block) := by
    ext b
    simp only [Set.mem_ofPred_eq, Finset.coe_image, Set.mem_image, Finset.mem_coe, List.mem_toFinset, List.mem_filter]
    constructor
    · rintro ⟨hb, hnq⟩
      obtain ⟨t, ht, rfl⟩ := exists_rect hb
      refine ⟨t, ⟨ht, ?_⟩, rfl⟩
      have h1 : t ∉ candidates m n keep := fun h => hnq ((hq t).1 h).2
      simp only [candidates, List.mem_filter, not_and, Bool.not_eq_true] at h1
      simp [h1 ht]
    · rintro ⟨t, ⟨ht, hk⟩, rfl⟩
      refine ⟨allRects_inside ht, fun hb => ?_⟩
      have := (hq t).2 ⟨ht, hb⟩
      simp only [candidates, List.mem_filter] at this
      simp [this.2] at hk
  rw [hset, Set.ncard_coe_finset, Finset.card_image_of_injective _ Rect.block_injective,
    List.toFinset_card_of_nodup ((nodup_allRects m n).filter _), ← length_allRects]
  have := List.length_eq_length_filter_add (l := allRects m n) fun t => keep (t.row n)
  simp only [candidates]
  omega

variable {α β Q R : Type} [DecidableEq α] [DecidableEq β] [CommRing Q] [LinearOrder Q] [IsStrictOrderedRing Q]
  [CommRing R] [LinearOrder R] [IsStrictOrderedRing R]

/-- **C92.** With a continuous target the number of refinements is the number of blocks of pre-bins which cannot be a bin: they
have no record, or fewer or more records than the limits allow. -/
theorem C92_refinements_continuous (j : JobC2D α β Q) :
    j.fit.refinements = {b : Block | b.Inside j.prepared.m j.prepared.n ∧
      ¬ (0 < b.total j.prepared.records ∧ Within j.opts.minSize j.opts.maxSize ((b.total j.prepared.records : ℕ) : ℤ))}.ncard :=
  refinements_eq _ _ _ _ fun _ => cont_mem (coef := j.coef) (gamma := j.gamma) (reg := j.reg) (S := j.prepared.sums)

/-- **C92.** With a binary target the number of refinements is the number of blocks of pre-bins which cannot be a bin: they
have no event or no non-event, or their numbers of records, events or non-events violate the limits. -/
theorem C92_refinements (j : Job2D α β R) :
    j.fit.refinements = {b : Block | b.Inside j.prepared.m j.prepared.n ∧
      ¬ (0 < b.total j.prepared.events ∧ 0 < b.total j.prepared.nonevents ∧
        Within j.opts.minSize j.opts.maxSize ((b.total j.prepared.events + b.total j.prepared.nonevents : ℕ) : ℤ) ∧
        Within j.opts.minEvent j.opts.maxEvent ((b.total j.prepared.events : ℕ) : ℤ) ∧
        Within j.opts.minNonevent j.opts.maxNonevent ((b.total j.prepared.nonevents : ℕ) : ℤ))}.ncard :=
  refinements_eq _ _ _ _ fun _ => binary_mem (coef := j.coef) (gamma := j.gamma) (reg := j.reg)

end OptBinning
