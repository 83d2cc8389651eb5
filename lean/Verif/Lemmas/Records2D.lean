import Verif.Lemmas.Binary2D

/-!
# Records, cells and bins of a two-dimensional fit
-/
namespace OptBinning

open Spec

set_option linter.unusedSectionVars false

variable {α β τ : Type} [DecidableEq α] [DecidableEq β]

theorem Block.total_add {S : Type*} [AddCommMonoid S] (b : Block) (f g : ℕ → ℕ → S) :
    b.total (fun r c => f r c + g r c) = b.total f + b.total g := by
  simp [Block.total, Finset.sum_add_distrib]

theorem Block.total_zero {S : Type*} [AddCommMonoid S] (b : Block) : b.total (fun _ _ => (0 : S)) = 0 := by
  simp [Block.total]

instance (b : Block) (r c : ℕ) : Decidable (b.Mem r c) := by unfold Block.Mem; infer_instance

theorem Block.total_single {S : Type*} [AddCommMonoid S] (b : Block) (a d : ℕ) (v : S) :
    b.total (fun r c => if a = r ∧ d = c then v else 0) = if b.Mem a d then v else 0 := by
  simp only [Block.total, ite_and, Finset.sum_ite_irrel, Finset.sum_const_zero, Finset.sum_ite_eq, Finset.mem_Ico, Block.Mem]

/-- A sum per cell, added up over a block, is the sum over the records in the block. -/
theorem total_records {ρ S : Type*} [AddCommMonoid S] (b : Block) (row col : ρ → ℕ) (w : ρ → S) (l : List ρ) :
    b.total (fun i j => ((l.filter fun r => row r == i && col r == j).map w).sum) =
      ((l.filter fun r => decide (b.Mem (row r) (col r))).map w).sum := by
  induction l with
  | nil => simp [Block.total_zero]
  | cons a l ih =>
    have e : (fun i j => (((a :: l).filter fun r => row r == i && col r == j).map w).sum) =
        fun i j => (if row a = i ∧ col a = j then w a else 0) + ((l.filter fun r => row r == i && col r == j).map w).sum := by
      funext i j
      by_cases h : row a = i ∧ col a = j
      · rw [List.filter_cons_of_pos (by simpa using h)]; simp [h]
      · rw [List.filter_cons_of_neg (by simpa using h)]; simp [h]
    rw [e, Block.total_add, ih, Block.total_single]
    by_cases h : b.Mem (row a) (col a)
    · rw [List.filter_cons_of_pos (by simpa using h)]; simp [h]
    · rw [List.filter_cons_of_neg (by simpa using h)]; simp [h]

/-- Counting in a cell as a sum. -/
theorem countP_eq_sum {ρ : Type*} (q : ρ → Bool) (l : List ρ) : l.countP q = (l.map fun r => if q r then 1 else 0).sum := by
  induction l with
  | nil => rfl
  | cons a l ih => cases h : q a <;> simp [h, ih, Nat.add_comm]

theorem total_count (p : Prepared2D α β τ) (q : τ → Bool) (b : Block) :
    b.total (fun i j => (p.cell i j).countP q) =
      p.clean.countP fun r => decide (b.Mem (p.row r.2.1) (p.col r.1)) && q r.2.2 := by
  have e : (fun i j => (p.cell i j).countP q) = fun i j =>
      ((p.clean.filter fun r => p.row r.2.1 == i && p.col r.1 == j).map fun r => if q r.2.2 then 1 else 0).sum := by
    funext i j
    simp only [Prepared2D.cell, countP_eq_sum, List.map_map]
    rfl
  rw [e, total_records b (fun r : α × β × τ => p.row r.2.1) (fun r => p.col r.1)]
  rw [← countP_eq_sum (fun r : α × β × τ => q r.2.2), List.countP_filter]
  congr 1
  funext r
  exact Bool.and_comm _ _

theorem Prepared2D.inBox_iff {p : Prepared2D α β τ} (h : p.WellFormed) {b : Block} (hb : b.Inside p.m p.n) {u : α} {v : β}
    (hu : Known p.axisX u) (hv : Known p.axisY v) :
    InBox p.axisX p.axisY (boxOf p.splitsX p.splitsY b) u v ↔ b.Mem (p.row v) (p.col u) := by
  obtain ⟨h1, h2, h3, h4⟩ := hb
  have hx := onRange_iff h.splitsX h.axisX hu h3 h4
  have hy := onRange_iff h.splitsY h.axisY hv h1 h2
  simp only [InBox, boxOf, Block.Mem, Prepared2D.row, Prepared2D.col]
  rw [hx, hy]
  tauto

theorem Prepared2D.row_lt (p : Prepared2D α β τ) (v : β) : p.row v < p.m :=
  Nat.lt_succ_of_le (digitize_le _ _ _)

theorem Prepared2D.col_lt (p : Prepared2D α β τ) (u : α) : p.col u < p.n :=
  Nat.lt_succ_of_le (digitize_le _ _ _)

theorem boxOf_lt {p : Prepared2D α β τ} (h : p.WellFormed) {b : Block} (hb : b.Inside p.m p.n) :
    (boxOf p.splitsX p.splitsY b).xlo < (boxOf p.splitsX p.splitsY b).xhi ∧
      (boxOf p.splitsX p.splitsY b).ylo < (boxOf p.splitsX p.splitsY b).yhi := by
  obtain ⟨h1, h2, h3, h4⟩ := hb
  exact ⟨bound_strictMono h.splitsX h3 h4 _ _, bound_strictMono h.splitsY h1 h2 _ _⟩

section Fit
variable {R : Type} [CommRing R] [LinearOrder R] [IsStrictOrderedRing R] {scx : Option (List (Option α))}
  {scy : Option (List (Option β))} {o : Opts2D} {coef : ℚ → ℚ → R} {gamma : Bool} {reg : ℕ → R}
  {solver : Prog2D R → Answer2D R} {init : ℕ → ℕ} {recs : List (Rec2 α β Bool)} {p : Prepared2D α β Bool}

/-- A successful fit: the selected rectangles. -/
structure Facts2D (scx : Option (List (Option α))) (scy : Option (List (Option β))) (o : Opts2D)
    (recs : List (Rec2 α β Bool)) (p : Prepared2D α β Bool) (f : Fitted2D α β) (sel : List Rect) : Prop where
  axisX : f.axisX = p.axisX
  axisY : f.axisY = p.axisY
  covers : Covers p.m p.n sel
  boxes : f.boxes = sel.map fun t => boxOf p.splitsX p.splitsY t.block
  admissible : Admissible2D o p.m p.n p.nonevents p.events (sel.map Rect.block).toFinset
  nonevent : f.nonevent = sel.map (fun t => t.block.total p.nonevents) ++
      [(special2D scx scy recs).countP (· == some false), (missing2D recs).countP (· == some false)]
  event : f.event = sel.map (fun t => t.block.total p.events) ++
      [(special2D scx scy recs).countP (· != some false), (missing2D recs).countP (· != some false)]
  m : f.m = p.m
  n : f.n = p.n
  P : ∃ init, f.P = pMatrix p.n init sel

theorem fit2D_facts
    (hv : (solver (binaryProgram o p.m p.n p.nonevents p.events coef gamma reg).2).Valid o
      (binaryProgram o p.m p.n p.nonevents p.events coef gamma reg).2)
    (hs : (fitPrepared2D scx scy o coef gamma reg solver init recs p).status = "OPTIMAL" ∨
      (fitPrepared2D scx scy o coef gamma reg solver init recs p).status = "FEASIBLE") :
    ∃ sel a, Feasible2D o (binaryProgram o p.m p.n p.nonevents p.events coef gamma reg).2 a ∧
      (sel.map Rect.block).toFinset = chosen (binaryProgram o p.m p.n p.nonevents p.events coef gamma reg).1 a.x ∧
      (∀ a', solver (binaryProgram o p.m p.n p.nonevents p.events coef gamma reg).2 = .optimal a' → a' = a) ∧
      Facts2D scx scy o recs p (fitPrepared2D scx scy o coef gamma reg solver init recs p) sel := by
  have main : ∀ (a : Assign2D R), Feasible2D o (binaryProgram o p.m p.n p.nonevents p.events coef gamma reg).2 a →
      (solver (binaryProgram o p.m p.n p.nonevents p.events coef gamma reg).2).solution
        (binaryProgram o p.m p.n p.nonevents p.events coef gamma reg).1.length =
        (List.range (binaryProgram o p.m p.n p.nonevents p.events coef gamma reg).1.length).map (fun i => a.x i != 0) →
      (∀ a', solver (binaryProgram o p.m p.n p.nonevents p.events coef gamma reg).2 = .optimal a' → a' = a) →
      ∃ sel a, Feasible2D o (binaryProgram o p.m p.n p.nonevents p.events coef gamma reg).2 a ∧
      (sel.map Rect.block).toFinset = chosen (binaryProgram o p.m p.n p.nonevents p.events coef gamma reg).1 a.x ∧
      (∀ a', solver (binaryProgram o p.m p.n p.nonevents p.events coef gamma reg).2 = .optimal a' → a' = a) ∧
      Facts2D scx scy o recs p (fitPrepared2D scx scy o coef gamma reg solver init recs p) sel := by
    intro a ha hsol hopt
    have hadm := binary_sound ha
    have hset := sel_toFinset (cands := (binaryProgram o p.m p.n p.nonevents p.events coef gamma reg).1) ha.dom.1
    have hsub : ∀ t ∈ select (binaryProgram o p.m p.n p.nonevents p.events coef gamma reg).1
        ((List.range (binaryProgram o p.m p.n p.nonevents p.events coef gamma reg).1.length).map (fun i => a.x i != 0)),
        t ∈ allRects p.m p.n := fun t ht => binary_cands t ((select_sublist _ _).mem ht)
    have hcov : Covers p.m p.n (select (binaryProgram o p.m p.n p.nonevents p.events coef gamma reg).1
        ((List.range (binaryProgram o p.m p.n p.nonevents p.events coef gamma reg).1.length).map (fun i => a.x i != 0))) := by
      refine ⟨hsub, binary_nodup.sublist (select_sublist _ _), ?_⟩
      rw [hset]
      exact hadm.tiling
    refine ⟨_, a, ha, hset, hopt, rfl, rfl, hcov, ?_, ?_, ?_, ?_, rfl, rfl, init, ?_⟩
    · simp only [fitPrepared2D, hsol]
      refine List.ext_getElem (by simp) fun i h1 h2 => ?_
      simp only [List.getElem_map, List.getElem_range]
      exact hcov.splitsOptimal init p.splitsX p.splitsY (by simpa using h1)
    · rw [hset]
      exact hadm
    · simp only [fitPrepared2D, hsol]
      congr 1
      refine List.map_congr_left fun t ht => ?_
      exact sum_row (mem_allRects.1 (hsub t ht)).2.2.2 _
    · simp only [fitPrepared2D, hsol]
      congr 1
      refine List.map_congr_left fun t ht => ?_
      exact sum_row (mem_allRects.1 (hsub t ht)).2.2.2 _
    · simp only [fitPrepared2D, hsol]
  obtain ⟨ans, hans⟩ : ∃ ans, solver (binaryProgram o p.m p.n p.nonevents p.events coef gamma reg).2 = ans := ⟨_, rfl⟩
  cases ans with
  | optimal a =>
    rw [hans] at hv
    exact main a hv.1 (by rw [hans]; rfl) fun a' h => by rw [hans] at h; cases h; rfl
  | feasible a =>
    rw [hans] at hv
    exact main a hv (by rw [hans]; rfl) fun a' h => by rw [hans] at h; cases h
  | failed s =>
    rw [hans] at hv
    simp only [fitPrepared2D, hans, Answer2D.status] at hs
    rcases hs with h | h
    · exact absurd h hv.1
    · exact absurd h hv.2.1

end Fit

end OptBinning
