import Verif.Props.Optimal2D

/-!
# Concrete cases for C43–C47
-/
namespace OptBinning

open Spec

/-- Two columns, two rows; `x = 7` is a special code; one record is special and missing at once. -/
def exRecs2D : List (Rec2 ℕ ℕ Bool) :=
  [⟨some 0, some 0, some true⟩, ⟨some 0, some 0, some false⟩, ⟨some 0, some 1, some true⟩, ⟨some 0, some 1, some false⟩,
   ⟨some 1, some 0, some true⟩, ⟨some 1, some 0, some false⟩, ⟨some 1, some 1, some true⟩, ⟨some 1, some 1, some true⟩,
   ⟨some 1, some 1, some false⟩, ⟨none, some 0, some true⟩, ⟨some 7, none, some true⟩, ⟨some 7, some 0, some false⟩]

noncomputable def exJob2D : Job2D ℕ ℕ ℤ where
  dx := .numerical fun k => fin k
  dy := .categorical fun _ => [0, 1]
  scx := some [some 7]
  o := { minBins := some 2, trendX := some .ascending }
  minBinSize := some (1 / 4)
  coef := cpCoef .iv
  reg := fun _ => 0
  prebinX := fun _ => [fin 1]
  prebinY := fun _ => [fin 1]
  solver := idealSolver
  init := fun _ => 0
  recs := exRecs2D

def exPrep2D : Prepared2D ℕ ℕ Bool :=
  prepare2D (.numerical fun k => fin k) (.categorical fun _ => [0, 1]) (some [some 7]) none (fun _ => [fin 1])
    (fun _ => [fin 1]) exRecs2D

def exLeft : Block := ⟨0, 2, 0, 1⟩
def exRight : Block := ⟨0, 2, 1, 2⟩

/-- The left and the right column. -/
def exTiling2D : Finset Block := {exLeft, exRight}

theorem exTotals2D : exLeft.total exPrep2D.events = 2 ∧ exLeft.total exPrep2D.nonevents = 2 ∧
    exRight.total exPrep2D.events = 3 ∧ exRight.total exPrep2D.nonevents = 2 := by decide +kernel

theorem exAllowed2D : exJob2D.Allowed exTiling2D := by
  obtain ⟨t1, t2, t3, t4⟩ := exTotals2D
  have hp : exJob2D.prepared = exPrep2D := rfl
  have hmn : exPrep2D.m = 2 ∧ exPrep2D.n = 2 := ⟨rfl, rfl⟩
  have ho : exJob2D.opts.minSize = some 3 ∧ exJob2D.opts.maxSize = none := by
    refine ⟨?_, rfl⟩
    simp only [Job2D.opts, absoluteSizes, exJob2D, Option.map_some, exRecs2D, List.length_cons, List.length_nil]
    norm_num
  have hne : exLeft ≠ exRight := by decide
  have cases : ∀ b ∈ exTiling2D, b = exLeft ∨ b = exRight := by
    intro b hb
    simpa [exTiling2D] using hb
  rw [Job2D.Allowed, hp, hmn.1, hmn.2]
  refine ⟨⟨?_, ?_⟩, ?_, ?_, ?_, ?_, ?_, ?_, ?_⟩
  · intro b hb
    rcases cases b hb with rfl | rfl <;> simp [Block.Inside, exLeft, exRight]
  · intro r hr c hc
    rcases (show c = 0 ∨ c = 1 by omega) with rfl | rfl
    · refine ⟨exLeft, ⟨by simp [exTiling2D], by simp [Block.Mem, exLeft]; omega⟩, ?_⟩
      rintro b ⟨hb, hm⟩
      rcases cases b hb with rfl | rfl
      · rfl
      · simp [Block.Mem, exRight] at hm
    · refine ⟨exRight, ⟨by simp [exTiling2D], by simp [Block.Mem, exRight]; omega⟩, ?_⟩
      rintro b ⟨hb, hm⟩
      rcases cases b hb with rfl | rfl
      · simp [Block.Mem, exLeft] at hm
      · rfl
  · intro b hb
    rcases cases b hb with rfl | rfl <;> omega
  · intro b hb
    rw [ho.1, ho.2]
    rcases cases b hb with rfl | rfl <;> simp [Within, t1, t2, t3, t4]
  · intro b _
    exact ⟨fun _ h => absurd h (by simp [exJob2D, Job2D.opts, absoluteSizes]),
      fun _ h => absurd h (by simp [exJob2D, Job2D.opts, absoluteSizes])⟩
  · intro b _
    exact ⟨fun _ h => absurd h (by simp [exJob2D, Job2D.opts, absoluteSizes]),
      fun _ h => absurd h (by simp [exJob2D, Job2D.opts, absoluteSizes])⟩
  · rw [show exTiling2D.card = 2 from rfl]
    refine ⟨fun b h => ?_, fun b h => by cases h⟩
    have : (2 : ℤ) = b := Option.some.inj h
    omega
  · intro a ha b hb hab
    show blockRate _ _ a + 0 < blockRate _ _ b
    rcases cases a ha with rfl | rfl <;> rcases cases b hb with rfl | rfl
    · simp [NextInX, exLeft] at hab
    · simp only [blockRate, t1, t2, t3, t4]
      norm_num
    · simp [NextInX, exLeft, exRight] at hab
    · simp [NextInX, exRight] at hab
  · intro a _ b _ _
    exact trivial

theorem exSucceeds2D : exJob2D.Succeeds ∧ exJob2D.fit.status = "OPTIMAL" := by
  have hst : exJob2D.fit.status = "OPTIMAL" := by
    obtain ⟨s, hs⟩ := exists_spread (fun b => b.total exJob2D.prepared.events + b.total exJob2D.prepared.nonevents)
      (tiling_nonempty (Nat.succ_pos _) (Nat.succ_pos _) exAllowed2D.tiling)
    obtain ⟨a, ha, _⟩ := binary_complete (R := ℤ) (coef := exJob2D.coef) (gamma := exJob2D.gamma) (reg := exJob2D.reg)
      exAllowed2D hs
    exact idealSolver_optimal ⟨a, ha⟩
  refine ⟨⟨⟨?_, ?_, trivial, ?_, ?_⟩, fun p => idealSolver_valid _ p, Or.inl hst⟩, hst⟩
  · exact ⟨List.pairwise_singleton _ _, fun v hv => by rw [List.mem_singleton.1 hv]; decide +kernel⟩
  · exact ⟨List.pairwise_singleton _ _, fun v hv => by rw [List.mem_singleton.1 hv]; decide +kernel⟩
  · show [0, 1].Nodup
    decide
  · have : ∀ r ∈ exPrep2D.clean, fin r.1 ≠ ⊤ ∧ r.2.1 ∈ [0, 1] := by decide +kernel
    exact this

/-- The bins of this fit: `x < 1` and `x ≥ 1`, every `y` in both cases (the only binning allowed apart from those with
a bin of fewer than three records). -/
example : ∃! i, ∃ hi : i < exJob2D.fit.boxes.length,
    InBox exJob2D.fit.axisX exJob2D.fit.axisY exJob2D.fit.boxes[i] 5 1 :=
  C43_partition exJob2D exSucceeds2D.1 (show fin 5 ≠ ⊤ by decide +kernel) (show (1 : ℕ) ∈ [0, 1] by decide)

/-- A record is special and missing: the table counts it twice. -/
example : exJob2D.fit.event.sum + exJob2D.fit.nonevent.sum = exRecs2D.length + 1 := by
  have h := C44_totals exJob2D exSucceeds2D.1
  rw [h]
  congr 1
  rw [show exJob2D.recs = exRecs2D from rfl, show exJob2D.scx = some [some 7] from rfl, show exJob2D.scy = none from rfl]
  simp [exRecs2D, IsCode]

example : 2 ≤ exJob2D.fit.boxes.length := by
  have := (C45_limits exJob2D exSucceeds2D.1).2.1 2 rfl
  exact_mod_cast this

example : exJob2D.divergence exTiling2D ≤ exJob2D.tableDivergence :=
  C47_optimal exJob2D exSucceeds2D.1 exSucceeds2D.2 rfl exAllowed2D

end OptBinning
