import Verif.Props.ContinuousOpt2D
import Verif.Props.Examples2D
import Verif.Props.Pairs2D
import Verif.Props.Refinements2D

/-!
# Concrete cases for C87–C92
-/
namespace OptBinning

open Spec

/-- Two columns, two rows; `x = 7` is a special code; one record is special and missing at once. -/
def exRecsC2D : List (Rec2 ℕ ℕ ℚ) :=
  [⟨some 0, some 0, some 1⟩, ⟨some 0, some 0, some 2⟩, ⟨some 0, some 1, some 1⟩, ⟨some 0, some 1, some 2⟩,
   ⟨some 1, some 0, some 3⟩, ⟨some 1, some 0, some 5⟩, ⟨some 1, some 1, some 3⟩, ⟨some 1, some 1, some 5⟩,
   ⟨some 1, some 1, some 4⟩, ⟨none, some 0, some 9⟩, ⟨some 7, none, some 2⟩, ⟨some 7, some 0, some 8⟩]

noncomputable def exJobC2D : JobC2D ℕ ℕ ℤ where
  dx := .numerical fun k => fin k
  dy := .categorical fun _ => [0, 1]
  scx := some [some 7]
  o := { minBins := some 2, trendX := some .ascending, minDiffX := 1 }
  minBinSize := some (1 / 4)
  coef := cpDistance
  reg := fun _ => 0
  prebinX := fun _ => [fin 1]
  prebinY := fun _ => [fin 1]
  solver := idealSolver
  init := fun _ => 0
  recs := exRecsC2D

def exPrepC2D : Prepared2D ℕ ℕ ℚ :=
  prepare2D (.numerical fun k => fin k) (.categorical fun _ => [0, 1]) (some [some 7]) none (fun _ => [fin 1])
    (fun _ => [fin 1]) exRecsC2D

theorem exTotalsC2D : exLeft.total exPrepC2D.records = 4 ∧ exLeft.total exPrepC2D.sums = 6 ∧
    exRight.total exPrepC2D.records = 5 ∧ exRight.total exPrepC2D.sums = 20 := by decide +kernel

theorem exAllowedC2D : exJobC2D.Allowed exTiling2D := by
  obtain ⟨t1, t2, t3, t4⟩ := exTotalsC2D
  have hp : exJobC2D.prepared = exPrepC2D := rfl
  have hmn : exPrepC2D.m = 2 ∧ exPrepC2D.n = 2 := ⟨rfl, rfl⟩
  have ho : exJobC2D.opts.minSize = some 3 ∧ exJobC2D.opts.maxSize = none := by
    refine ⟨?_, rfl⟩
    simp only [JobC2D.opts, absoluteSizes, exJobC2D, Option.map_some, exRecsC2D, List.length_cons, List.length_nil]
    norm_num
  have cases : ∀ b ∈ exTiling2D, b = exLeft ∨ b = exRight := by
    intro b hb
    simpa [exTiling2D] using hb
  rw [JobC2D.Allowed, hp, hmn.1, hmn.2]
  refine ⟨exAllowed2D.tiling, ?_, ?_, ?_, ?_, ?_⟩
  · intro b hb
    rcases cases b hb with rfl | rfl <;> omega
  · intro b hb
    rw [ho.1, ho.2]
    rcases cases b hb with rfl | rfl <;> simp [Within, t1, t3]
  · rw [show exTiling2D.card = 2 from rfl]
    refine ⟨fun b h => ?_, fun b h => by cases h⟩
    have : (2 : ℤ) = b := Option.some.inj h
    omega
  · intro a ha b hb hab
    show blockMean _ _ a + 1 < blockMean _ _ b
    rcases cases a ha with rfl | rfl <;> rcases cases b hb with rfl | rfl
    · simp [NextInX, exLeft] at hab
    · simp only [blockMean, t1, t2, t3, t4]
      norm_num
    · simp [NextInX, exLeft, exRight] at hab
    · simp [NextInX, exRight] at hab
  · intro a _ b _ _
    exact trivial

theorem exSucceedsC2D : exJobC2D.Succeeds ∧ exJobC2D.fit.status = "OPTIMAL" := by
  have hst : exJobC2D.fit.status = "OPTIMAL" := by
    obtain ⟨s, hs⟩ := exists_spread (fun b => b.total exJobC2D.prepared.records)
      (tiling_nonempty (Nat.succ_pos _) (Nat.succ_pos _) exAllowedC2D.tiling)
    obtain ⟨a, ha, _⟩ := cont_complete (Q := ℤ) (coef := exJobC2D.coef) (gamma := exJobC2D.gamma) (reg := exJobC2D.reg)
      exAllowedC2D hs
    exact idealSolver_optimal ⟨a, ha⟩
  refine ⟨⟨⟨?_, ?_, trivial, ?_, ?_⟩, fun p => idealSolver_valid _ p, Or.inl hst⟩, hst⟩
  · exact ⟨List.pairwise_singleton _ _, fun v hv => by rw [List.mem_singleton.1 hv]; decide +kernel⟩
  · exact ⟨List.pairwise_singleton _ _, fun v hv => by rw [List.mem_singleton.1 hv]; decide +kernel⟩
  · show [0, 1].Nodup
    decide
  · have : ∀ r ∈ exPrepC2D.clean, fin r.1 ≠ ⊤ ∧ r.2.1 ∈ [0, 1] := by decide +kernel
    exact this

example : ∃! i, ∃ hi : i < exJobC2D.fit.boxes.length,
    InBox exJobC2D.fit.axisX exJobC2D.fit.axisY exJobC2D.fit.boxes[i] 5 1 :=
  C87_partition exJobC2D exSucceedsC2D.1 (show fin 5 ≠ ⊤ by decide +kernel) (show (1 : ℕ) ∈ [0, 1] by decide)

/-- A record is special and missing: the table counts it twice. -/
example : tRecords2 exJobC2D.fit.rows = exRecsC2D.length + 1 := by
  have h := (C88_totals exJobC2D exSucceedsC2D.1).1
  rw [h]
  congr 1
  rw [show exJobC2D.recs = exRecsC2D from rfl, show exJobC2D.scx = some [some 7] from rfl, show exJobC2D.scy = none from rfl]
  simp [exRecsC2D, IsCode, RecMissing, RecSpecial]

example : 2 ≤ exJobC2D.fit.boxes.length := by
  have := (C89_limits exJobC2D exSucceedsC2D.1).2.1 2 rfl
  exact_mod_cast this

example : exJobC2D.value exTiling2D ≤ exJobC2D.fitValue :=
  C90_optimal exJobC2D exSucceedsC2D.1 exSucceedsC2D.2 rfl exAllowedC2D

/-- The matrix of bins `[[0, 1], [2, 1]]`: three bins, each next to the two others (bin 0 above bin 2). -/
example : getPairs (getPaths 2 2 fun p => [0, 1, 2, 1].getD p 9).1 (getPaths 2 2 fun p => [0, 1, 2, 1].getD p 9).2 =
    [(0, 1), (0, 2), (2, 1)] := by
  rw [show (getPaths 2 2 fun p => [0, 1, 2, 1].getD p 9) = ([[0, 1], [2, 1]], [[0, 2], [1]]) by decide +kernel]
  simp [getPairs, List.mergeSort, List.MergeSort.Internal.splitInTwo, List.merge, pairLE]

/-- Every test of the example compares a bin with its neighbour. -/
example {γ : Type} (test : Option ℚ → Option ℚ → ℕ → Option ℚ → Option ℚ → ℕ → γ) :
    LexSorted (testedPairs (exJobC2D.fit.tests test)) := (C91_pairs_continuous exJobC2D exSucceedsC2D.1 test).1

/-- Of the 9 blocks of the 2 × 2 grid the three with fewer than 3 records are refused. -/
example : exJobC2D.fit.refinements = 3 := by
  have ho : exJobC2D.opts.minSize = some 3 ∧ exJobC2D.opts.maxSize = none := by
    refine ⟨?_, rfl⟩
    simp only [JobC2D.opts, absoluteSizes, exJobC2D, Option.map_some, exRecsC2D, List.length_cons, List.length_nil]
    norm_num
  show 2 * 2 * (2 + 1) * (2 + 1) / 4 - (candidates 2 2 (keepContinuous exJobC2D.opts (ravel 2 exPrepC2D.records))).length = 3
  have hk : keepContinuous exJobC2D.opts (ravel 2 exPrepC2D.records) =
      keepContinuous { minSize := some 3 } (ravel 2 exPrepC2D.records) := by
    funext row
    simp only [keepContinuous, ho.1, ho.2]
  rw [hk]
  decide +kernel

end OptBinning
