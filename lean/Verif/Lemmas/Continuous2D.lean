import Verif.Lemmas.Geo2D

/-!
# The two-dimensional fit for a continuous target: the candidates, the program and the result
-/
namespace OptBinning

open Spec

set_option linter.unusedSectionVars false

section
variable {Q : Type*} [CommRing Q] [LinearOrder Q] [IsStrictOrderedRing Q] {o : Opts2D} {m n : ℕ} {R : ℕ → ℕ → ℕ}
  {S : ℕ → ℕ → ℚ} {coef : ℚ → Q} {gamma : Bool} {reg : ℕ → Q}

theorem cont_cands : ∀ t ∈ (continuousProgram o m n R S coef gamma reg).1, t ∈ allRects m n := candidates_sub

theorem cont_nodup : (continuousProgram o m n R S coef gamma reg).1.Nodup := nodup_candidates _ _ _

theorem cont_mem {t : Rect} : t ∈ (continuousProgram o m n R S coef gamma reg).1 ↔
    t ∈ allRects m n ∧ 0 < t.block.total R ∧ Within o.minSize o.maxSize ((t.block.total R : ℕ) : ℤ) := by
  simp only [continuousProgram, candidates, List.mem_filter]
  refine and_congr_right fun h => ?_
  rw [keepContinuous_iff, sum_row (mem_allRects.1 h).2.2.2]

theorem cont_mean {i : ℕ} (hi : i < (continuousProgram o m n R S coef gamma reg).1.length) :
    (continuousProgram o m n R S coef gamma reg).2.er i =
      blockMean R S ((continuousProgram o m n R S coef gamma reg).1[i]).block := by
  have h1 := rectSum_eq (cont_cands (o := o) (R := R) (S := S) (coef := coef) (gamma := gamma) (reg := reg) (m := m) (n := n)) R hi
  have h2 := rectSum_eq (cont_cands (o := o) (R := R) (S := S) (coef := coef) (gamma := gamma) (reg := reg) (m := m) (n := n)) S hi
  simp only [continuousProgram, program2D, meanOf, blockMean] at *
  rw [h1, h2]

theorem cont_records {i : ℕ} (hi : i < (continuousProgram o m n R S coef gamma reg).1.length) :
    (continuousProgram o m n R S coef gamma reg).2.records i =
      (fun b : Block => b.total R) ((continuousProgram o m n R S coef gamma reg).1[i]).block := by
  have h1 := rectSum_eq (cont_cands (o := o) (R := R) (S := S) (coef := coef) (gamma := gamma) (reg := reg) (m := m) (n := n)) R hi
  simp only [continuousProgram, program2D] at *
  rw [h1]

/-- Mean over the whole grid. -/
def gridMean (m n : ℕ) (R : ℕ → ℕ → ℕ) (S : ℕ → ℕ → ℚ) : ℚ := gridTotal m n S / ((gridTotal m n R : ℕ) : ℚ)

theorem cont_value {i : ℕ} (hi : i < (continuousProgram o m n R S coef gamma reg).1.length) :
    (continuousProgram o m n R S coef gamma reg).2.c i =
      (fun b => coef |blockMean R S b - gridMean m n R S|) ((continuousProgram o m n R S coef gamma reg).1[i]).block := by
  have h1 := rectSum_eq (cont_cands (o := o) (R := R) (S := S) (coef := coef) (gamma := gamma) (reg := reg) (m := m) (n := n)) R hi
  have h2 := rectSum_eq (cont_cands (o := o) (R := R) (S := S) (coef := coef) (gamma := gamma) (reg := reg) (m := m) (n := n)) S hi
  simp only [continuousProgram, program2D, meanOf, blockMean, gridMean] at *
  rw [h1, h2, sum_grid, sum_grid]

theorem cont_eq : (continuousProgram o m n R S coef gamma reg).2 =
    program2D m n (continuousProgram o m n R S coef gamma reg).1 (continuousProgram o m n R S coef gamma reg).2.er
      (continuousProgram o m n R S coef gamma reg).2.records (continuousProgram o m n R S coef gamma reg).2.c gamma
      (continuousProgram o m n R S coef gamma reg).2.reg := rfl

/-- Every solution is an admissible binning. -/
theorem cont_sound {a : Assign2D Q} (h : Feasible2D o (continuousProgram o m n R S coef gamma reg).2 a) :
    AdmissibleMean2D o m n R S (chosen (continuousProgram o m n R S coef gamma reg).1 a.x) := by
  rw [cont_eq] at h
  obtain ⟨h1, h2, h3⟩ := chosen_sound cont_cands cont_nodup (rate := blockMean R S) (fun i hi => cont_mean hi) h
  have hg : ∀ b ∈ chosen (continuousProgram o m n R S coef gamma reg).1 a.x,
      0 < b.total R ∧ Within o.minSize o.maxSize ((b.total R : ℕ) : ℤ) := by
    intro b hb
    obtain ⟨i, hi, _, rfl⟩ := mem_chosen.1 hb
    exact (cont_mem.1 (List.getElem_mem hi)).2
  exact ⟨h1, fun b hb => (hg b hb).1, fun b hb => (hg b hb).2, h2, h3⟩

theorem admissibleMean_cands {T : Finset Block} (h : AdmissibleMean2D o m n R S T) :
    ∀ b ∈ T, ∃ t ∈ (continuousProgram o m n R S coef gamma reg).1, t.block = b := by
  intro b hb
  obtain ⟨t, ht, rfl⟩ := exists_rect (h.tiling.1 b hb)
  exact ⟨t, cont_mem.2 ⟨ht, h.nonempty _ hb, h.size _ hb⟩, rfl⟩

/-- Every admissible binning is a solution. -/
theorem cont_complete {T : Finset Block} (h : AdmissibleMean2D o m n R S T) {s : ℕ}
    (hs : IsSpread (fun b => b.total R) T s) :
    ∃ a, Feasible2D o (continuousProgram o m n R S coef gamma reg).2 a ∧
      chosen (continuousProgram o m n R S coef gamma reg).1 a.x = T ∧ a.pmax - a.pmin = (s : Q) := by
  rw [cont_eq]
  exact chosen_complete cont_cands cont_nodup (fun i hi => cont_mean hi) (fun i hi => cont_records hi)
    (admissibleMean_cands h) h.tiling h.number h.trends hs

theorem cont_objective {a : Assign2D Q} (h : Feasible2D o (continuousProgram o m n R S coef gamma reg).2 a) :
    objective2D (continuousProgram o m n R S coef gamma reg).2 a =
      ∑ b ∈ chosen (continuousProgram o m n R S coef gamma reg).1 a.x, coef |blockMean R S b - gridMean m n R S| -
        if gamma then (continuousProgram o m n R S coef gamma reg).2.reg * (a.pmax - a.pmin) else 0 := by
  rw [objective2D]
  congr 1
  exact sum_chosen (c := (continuousProgram o m n R S coef gamma reg).2.c) cont_nodup
    (value := fun b => coef |blockMean R S b - gridMean m n R S|) (fun i hi => cont_value hi) h.dom.1

end

section Fit
variable {α β : Type} [DecidableEq α] [DecidableEq β] {Q : Type} [CommRing Q] [LinearOrder Q] [IsStrictOrderedRing Q]
  {scx : Option (List (Option α))}
  {scy : Option (List (Option β))} {o : Opts2D} {coef : ℚ → Q} {gamma : Bool} {reg : ℕ → Q}
  {solver : Prog2D Q → Answer2D Q} {init : ℕ → ℕ} {recs : List (Rec2 α β ℚ)} {p : Prepared2D α β ℚ}

/-- A successful fit: the selected rectangles. -/
structure FactsC2D (scx : Option (List (Option α))) (scy : Option (List (Option β))) (o : Opts2D)
    (recs : List (Rec2 α β ℚ)) (init : ℕ → ℕ) (p : Prepared2D α β ℚ) (f : FittedC2D α β) (sel : List Rect) : Prop where
  geo : Geo p f.axisX f.axisY f.boxes sel
  admissible : AdmissibleMean2D o p.m p.n p.records p.sums (sel.map Rect.block).toFinset
  rows : f.rows = sel.map (rowOfRect p.n p.records p.sums p.squares) ++
      [rowOfTargets (special2D scx scy recs), rowOfTargets (missing2D recs)]
  m : f.m = p.m
  n : f.n = p.n
  P : f.P = pMatrix p.n init sel

theorem fitC2D_facts
    (hv : (solver (continuousProgram o p.m p.n p.records p.sums coef gamma reg).2).Valid o
      (continuousProgram o p.m p.n p.records p.sums coef gamma reg).2)
    (hs : (fitPreparedC2D scx scy o coef gamma reg solver init recs p).status = "OPTIMAL" ∨
      (fitPreparedC2D scx scy o coef gamma reg solver init recs p).status = "FEASIBLE") :
    ∃ sel a, Feasible2D o (continuousProgram o p.m p.n p.records p.sums coef gamma reg).2 a ∧
      (sel.map Rect.block).toFinset = chosen (continuousProgram o p.m p.n p.records p.sums coef gamma reg).1 a.x ∧
      (∀ a', solver (continuousProgram o p.m p.n p.records p.sums coef gamma reg).2 = .optimal a' → a' = a) ∧
      FactsC2D scx scy o recs init p (fitPreparedC2D scx scy o coef gamma reg solver init recs p) sel := by
  have main : ∀ (a : Assign2D Q), Feasible2D o (continuousProgram o p.m p.n p.records p.sums coef gamma reg).2 a →
      (solver (continuousProgram o p.m p.n p.records p.sums coef gamma reg).2).solution
        (continuousProgram o p.m p.n p.records p.sums coef gamma reg).1.length =
        (List.range (continuousProgram o p.m p.n p.records p.sums coef gamma reg).1.length).map (fun i => a.x i != 0) →
      (∀ a', solver (continuousProgram o p.m p.n p.records p.sums coef gamma reg).2 = .optimal a' → a' = a) →
      ∃ sel a, Feasible2D o (continuousProgram o p.m p.n p.records p.sums coef gamma reg).2 a ∧
      (sel.map Rect.block).toFinset = chosen (continuousProgram o p.m p.n p.records p.sums coef gamma reg).1 a.x ∧
      (∀ a', solver (continuousProgram o p.m p.n p.records p.sums coef gamma reg).2 = .optimal a' → a' = a) ∧
      FactsC2D scx scy o recs init p (fitPreparedC2D scx scy o coef gamma reg solver init recs p) sel := by
    intro a ha hsol hopt
    have hadm := cont_sound ha
    have hset := sel_toFinset (cands := (continuousProgram o p.m p.n p.records p.sums coef gamma reg).1) ha.dom.1
    have hsub : ∀ t ∈ select (continuousProgram o p.m p.n p.records p.sums coef gamma reg).1
        ((List.range (continuousProgram o p.m p.n p.records p.sums coef gamma reg).1.length).map (fun i => a.x i != 0)),
        t ∈ allRects p.m p.n := fun t ht => cont_cands t ((select_sublist _ _).mem ht)
    have hcov : Covers p.m p.n (select (continuousProgram o p.m p.n p.records p.sums coef gamma reg).1
        ((List.range (continuousProgram o p.m p.n p.records p.sums coef gamma reg).1.length).map (fun i => a.x i != 0))) := by
      refine ⟨hsub, cont_nodup.sublist (select_sublist _ _), ?_⟩
      rw [hset]
      exact hadm.tiling
    refine ⟨_, a, ha, hset, hopt, ⟨rfl, rfl, hcov, ?_⟩, ?_, ?_, rfl, rfl, ?_⟩
    · simp only [fitPreparedC2D, hsol]
      refine List.ext_getElem (by simp) fun i h1 h2 => ?_
      simp only [List.getElem_map, List.getElem_range]
      exact hcov.splitsOptimal init p.splitsX p.splitsY (by simpa using h1)
    · rw [hset]
      exact hadm
    · simp only [fitPreparedC2D, hsol]
    · simp only [fitPreparedC2D, hsol]
  obtain ⟨ans, hans⟩ : ∃ ans, solver (continuousProgram o p.m p.n p.records p.sums coef gamma reg).2 = ans := ⟨_, rfl⟩
  cases ans with
  | optimal a =>
    rw [hans] at hv
    exact main a hv.1 (by rw [hans]; rfl) fun a' h => by rw [hans] at h; cases h; rfl
  | feasible a =>
    rw [hans] at hv
    exact main a hv (by rw [hans]; rfl) fun a' h => by rw [hans] at h; cases h
  | failed s =>
    rw [hans] at hv
    simp only [fitPreparedC2D, hans, Answer2D.status] at hs
    rcases hs with h | h
    · exact absurd h hv.1
    · exact absurd h hv.2.1

end Fit

end OptBinning
