import Verif.Lemmas.CartSolve
import Verif.Props.ContinuousOpt2D

/-!
# A successful fit with strategy `"cart"` is a successful fit with strategy `"grid"` without a trend in `x`
-/
namespace OptBinning

open Spec

set_option linter.unusedSectionVars false

section Program
variable {m n : ℕ} {R : Type*} [CommRing R] [LinearOrder R] [IsStrictOrderedRing R] {o : Opts2D} {t : CartTree}
  {init : ℕ → ℕ → ℕ}

/-- The rectangles behind a binary program. -/
structure CartCands (o : Opts2D) (m n : ℕ) (t : CartTree) (good : Block → Prop) (rate : Block → ℚ) (size : Block → ℕ)
    (value : Block → R) (gamma : Bool) (cp : List (List ℕ) × Prog2D R) (cands : List Rect) : Prop where
  rows : cp.1 = cands.map (Rect.row n)
  nodup : cands.Nodup
  sorted : cands.Pairwise CornerLE
  mem : ∀ s, s ∈ cands ↔ s ∈ allRects m n ∧ UnionOfLeaves t m n s.block ∧ TwoLeaves t s.block ∧ good s.block
  program : cp.2 = cartProgram m n (cands.map (Rect.row n)) cp.2.er cp.2.records cp.2.c gamma cp.2.reg
  er : ∀ i (h : i < cands.length), cp.2.er i = rate cands[i].block
  records : ∀ i (h : i < cands.length), cp.2.records i = size cands[i].block
  c : ∀ i (h : i < cands.length), cp.2.c i = value cands[i].block

theorem cart_binary (hw : t.WellFormed) (NE E : ℕ → ℕ → ℕ) (coef : ℚ → ℚ → R) (gamma : Bool) (reg : ℕ → R) :
    ∃ cands, CartCands o m n t (GoodBlock o NE E) (blockRate NE E) (fun b => b.total E + b.total NE)
      (blockValue m n NE E coef) gamma (cartBinary o m n (t.matrix init) NE E coef gamma reg) cands := by
  obtain ⟨cands, h1, h2, h3, h4⟩ := cart_cands (m := m) (n := n) (matrix_boxy hw init) (keepBinary o (ravel n NE) (ravel n E))
  have hc : ∀ t ∈ cands, t ∈ allRects m n := fun t ht => ((h4 t).1 ht).1
  refine ⟨cands, ?_, h2, h3, ?_, ?_, ?_, ?_, ?_⟩
  · exact h1
  · intro s
    rw [h4]
    refine and_congr_right fun hs => ?_
    rw [isUnion_leaves hw init hs, twoLeaves_iff hw init, keepBinary_iff, sum_row (mem_allRects.1 hs).2.2.2,
      sum_row (mem_allRects.1 hs).2.2.2, GoodBlock]
  · simp only [cartBinary, h1]
    rfl
  · intro i hi
    simp only [cartBinary, h1, cartProgram, rateOf, blockRate, rectSum_eq hc E hi, rectSum_eq hc NE hi]
  · intro i hi
    simp only [cartBinary, h1, cartProgram, rectSum_eq hc E hi, rectSum_eq hc NE hi]
  · intro i hi
    simp only [cartBinary, h1, cartProgram, blockValue, rectSum_eq hc E hi, rectSum_eq hc NE hi, sum_grid]

/-- The requirements on a single bin, continuous target. -/
def GoodMean (o : Opts2D) (N : ℕ → ℕ → ℕ) (b : Block) : Prop :=
  0 < b.total N ∧ Within o.minSize o.maxSize ((b.total N : ℕ) : ℤ)

theorem cart_continuous (hw : t.WellFormed) (N : ℕ → ℕ → ℕ) (S : ℕ → ℕ → ℚ) (coef : ℚ → R) (gamma : Bool) (reg : ℕ → R) :
    ∃ cands, CartCands o m n t (GoodMean o N) (blockMean N S) (fun b => b.total N)
      (fun b => coef |blockMean N S b - gridMean m n N S|) gamma
      (cartContinuous o m n (t.matrix init) N S coef gamma reg) cands := by
  obtain ⟨cands, h1, h2, h3, h4⟩ := cart_cands (m := m) (n := n) (matrix_boxy hw init) (keepContinuous o (ravel n N))
  have hc : ∀ t ∈ cands, t ∈ allRects m n := fun t ht => ((h4 t).1 ht).1
  refine ⟨cands, ?_, h2, h3, ?_, ?_, ?_, ?_, ?_⟩
  · exact h1
  · intro s
    rw [h4]
    refine and_congr_right fun hs => ?_
    rw [isUnion_leaves hw init hs, twoLeaves_iff hw init, keepContinuous_iff, sum_row (mem_allRects.1 hs).2.2.2, GoodMean]
  · simp only [cartContinuous, h1]
    rfl
  · intro i hi
    simp only [cartContinuous, h1, cartProgram, meanOf, blockMean, rectSum_eq hc N hi, rectSum_eq hc S hi]
  · intro i hi
    simp only [cartContinuous, h1, cartProgram, rectSum_eq hc N hi]
  · intro i hi
    simp only [cartContinuous, h1, cartProgram, meanOf, blockMean, gridMean, rectSum_eq hc N hi, rectSum_eq hc S hi, sum_grid]

variable {good : Block → Prop} {rate : Block → ℚ} {size : Block → ℕ} {value : Block → R} {gamma : Bool}
  {cp : List (List ℕ) × Prog2D R} {cands : List Rect}

namespace CartCands
variable (h : CartCands o m n t good rate size value gamma cp cands)
include h

theorem sub : ∀ s ∈ cands, s ∈ allRects m n := fun s hs => ((h.mem s).1 hs).1

theorem length : cp.1.length = cands.length := by rw [h.rows]; simp

theorem sound {a : Assign2D R} (ha : Feasible2D o cp.2 a) :
    IsTiling m n (chosen cands a.x) ∧ Within o.minBins o.maxBins ((chosen cands a.x).card : ℤ) ∧
      TrendsHold { o with trendX := none } (chosen cands a.x) rate ∧
      ∀ b ∈ chosen cands a.x, UnionOfLeaves t m n b ∧ TwoLeaves t b ∧ good b := by
  rw [h.program] at ha
  obtain ⟨h1, h2, h3⟩ := chosen_sound h.sub h.nodup h.er (cart_feasible h.sub ha)
  refine ⟨h1, h2, h3, fun b hb => ?_⟩
  obtain ⟨i, hi, _, rfl⟩ := mem_chosen.1 hb
  exact ((h.mem _).1 (List.getElem_mem hi)).2

theorem zero_one {a : Assign2D R} (ha : Feasible2D o cp.2 a) : ∀ i < cands.length, a.x i = 0 ∨ a.x i = 1 := by
  rw [h.program] at ha
  exact (cart_feasible h.sub ha).dom.1

theorem complete {T : Finset Block} (ht : IsTiling m n T) (hb : Within o.minBins o.maxBins (T.card : ℤ))
    (htr : TrendsHold o T rate) (hT : ∀ b ∈ T, UnionOfLeaves t m n b ∧ TwoLeaves t b ∧ good b) {s : ℕ} (hs : IsSpread size T s) :
    ∃ a : Assign2D R, Feasible2D o cp.2 a ∧ chosen cands a.x = T ∧ a.pmax - a.pmin = (s : R) := by
  rw [h.program]
  obtain ⟨a, h1, h2, h3⟩ := chosen_complete (c := cp.2.c) (gamma := gamma) (reg := cp.2.reg) h.sub h.nodup h.er h.records (fun b hb => by
    obtain ⟨s, hs, rfl⟩ := exists_rect (ht.1 b hb)
    exact ⟨s, (h.mem s).2 ⟨hs, hT _ hb⟩, rfl⟩) ht hb htr hs
  exact ⟨a, feasible_cart h.sub h1, h2, h3⟩

theorem objective {a : Assign2D R} (ha : Feasible2D o cp.2 a) :
    objective2D cp.2 a = ∑ b ∈ chosen cands a.x, value b - if gamma then cp.2.reg * (a.pmax - a.pmin) else 0 := by
  have hx := h.zero_one ha
  have e : cp.2.nRect = cands.length := by rw [h.program]; simp [cartProgram]
  have e2 : cp.2.gamma = gamma := by rw [h.program]; rfl
  rw [objective2D, e, e2]
  congr 1
  exact sum_chosen h.nodup h.c hx

theorem covers {a : Assign2D R} (ha : Feasible2D o cp.2 a) :
    Covers m n (select cands ((List.range cands.length).map fun i => a.x i != 0)) := by
  refine ⟨fun s hs => h.sub s ((select_sublist _ _).mem hs), h.nodup.sublist (select_sublist _ _), ?_⟩
  rw [sel_toFinset (h.zero_one ha)]
  exact (h.sound ha).1

theorem selected {a : Assign2D R} :
    select cp.1 ((List.range cp.1.length).map fun i => a.x i != 0) =
      (select cands ((List.range cands.length).map fun i => a.x i != 0)).map (Rect.row n) := by
  rw [h.length, h.rows, select_map']

end CartCands
end Program

section Binary
variable {α β : Type} [DecidableEq α] [DecidableEq β] {R : Type} [CommRing R] [LinearOrder R] [IsStrictOrderedRing R]

/-- The external parts behave as documented, and the solver found a solution. -/
structure CartJob2D.Succeeds (j : CartJob2D α β R) : Prop where
  wellFormed : j.prepared.WellFormed
  tree : j.theTree.WellFormed
  solver : ∀ p, (j.solver j.opts p).Valid j.opts p
  status : j.fitCart.status = "OPTIMAL" ∨ j.fitCart.status = "FEASIBLE"

/-- The same call with strategy `"grid"`, without a trend in `x`, and with another solver. -/
def CartJob2D.grid (j : CartJob2D α β R) (s : Opts2D → Prog2D R → Answer2D R) : Job2D α β R :=
  { j.toJob2D with o := { j.o with trendX := none }, solver := s }

/-- The solution behind a status. -/
theorem answer_of_status {o : Opts2D} {p : Prog2D R} {ans : Answer2D R} (hv : ans.Valid o p)
    (hs : ans.status = "OPTIMAL" ∨ ans.status = "FEASIBLE") :
    ∃ a, Feasible2D o p a ∧ (∀ N, ans.solution N = (List.range N).map fun i => a.x i != 0) ∧
      (ans.status = "OPTIMAL" → ∀ b, Feasible2D o p b → objective2D p b ≤ objective2D p a) := by
  cases ans with
  | optimal a => exact ⟨a, hv.1, fun _ => rfl, fun _ => hv.2⟩
  | feasible a => exact ⟨a, hv, fun _ => rfl, fun h => by simp [Answer2D.status] at h⟩
  | failed s =>
    obtain ⟨h1, h2, _⟩ := hv
    rcases hs with h | h
    · exact absurd h h1
    · exact absurd h h2

/-- A solver which knows one assignment. -/
noncomputable def knowsOne (a : Assign2D R) (o : Opts2D) (p : Prog2D R) : Answer2D R :=
  @ite _ (Feasible2D o p a) (Classical.dec _) (.feasible a) (.failed "UNKNOWN")

theorem knowsOne_valid (a : Assign2D R) (o : Opts2D) (p : Prog2D R) : (knowsOne a o p).Valid o p := by
  unfold knowsOne
  split
  · assumption
  · exact ⟨by decide, by decide, fun h => by simp at h⟩

theorem knowsOne_pos {a : Assign2D R} {o : Opts2D} {p : Prog2D R} (h : Feasible2D o p a) : knowsOne a o p = .feasible a := by
  unfold knowsOne
  rw [if_pos h]

theorem candidates_sorted (m n : ℕ) (keep : List ℕ → Bool) : (candidates m n keep).Pairwise CornerLE :=
  (allRects_sorted m n).filter _

/-- The fitted object with the selected rectangles `sel`. -/
def fitWith (scx : Option (List (Option α))) (scy : Option (List (Option β))) (recs : List (Rec2 α β Bool)) (init : ℕ → ℕ)
    (p : Prepared2D α β Bool) (st : String) (rf : ℕ) (sel : List Rect) : Fitted2D α β :=
  { status := st
    axisX := p.axisX
    axisY := p.axisY
    boxes := (List.range sel.length).map (splitsOptimal p.m p.n p.splitsX p.splitsY (pMatrix p.n init sel))
    nonevent := sel.map (fun t => ((t.row p.n).map (ravel p.n p.nonevents)).sum) ++
      [(special2D scx scy recs).countP (· == some false), (missing2D recs).countP (· == some false)]
    event := sel.map (fun t => ((t.row p.n).map (ravel p.n p.events)).sum) ++
      [(special2D scx scy recs).countP (· != some false), (missing2D recs).countP (· != some false)]
    m := p.m
    n := p.n
    P := pMatrix p.n init sel
    refinements := rf }

theorem facts_fitWith {scx : Option (List (Option α))} {scy : Option (List (Option β))} {recs : List (Rec2 α β Bool)}
    {init : ℕ → ℕ} {p : Prepared2D α β Bool} {st : String} {rf : ℕ} {sel : List Rect} {o : Opts2D} (hc : Covers p.m p.n sel)
    (ha : Admissible2D o p.m p.n p.nonevents p.events (sel.map Rect.block).toFinset) :
    Facts2D scx scy o recs p (fitWith scx scy recs init p st rf sel) sel := by
  refine ⟨rfl, rfl, hc, ?_, ha, ?_, ?_, rfl, rfl, init, rfl⟩
  · refine List.ext_getElem (by simp [fitWith]) fun i h1 h2 => ?_
    simp only [fitWith, List.getElem_map, List.getElem_range]
    exact hc.splitsOptimal init p.splitsX p.splitsY (by simpa using h2)
  · simp only [fitWith]
    congr 1
    exact List.map_congr_left fun t ht => sum_row (mem_allRects.1 (hc.rects t ht)).2.2.2 _
  · simp only [fitWith]
    congr 1
    exact List.map_congr_left fun t ht => sum_row (mem_allRects.1 (hc.rects t ht)).2.2.2 _

theorem fitPrepared_eq {scx : Option (List (Option α))} {scy : Option (List (Option β))} {o : Opts2D} {coef : ℚ → ℚ → R}
    {gamma : Bool} {reg : ℕ → R} {solver : Prog2D R → Answer2D R} {init : ℕ → ℕ} {recs : List (Rec2 α β Bool)}
    {p : Prepared2D α β Bool} {a : Assign2D R} {st : String}
    (h : solver (binaryProgram o p.m p.n p.nonevents p.events coef gamma reg).2 = .feasible a) (hst : st = "FEASIBLE") :
    ∃ rf, fitPrepared2D scx scy o coef gamma reg solver init recs p = fitWith scx scy recs init p st rf
      (select (binaryProgram o p.m p.n p.nonevents p.events coef gamma reg).1
        ((List.range (binaryProgram o p.m p.n p.nonevents p.events coef gamma reg).1.length).map fun i => a.x i != 0)) := by
  refine ⟨(fitPrepared2D scx scy o coef gamma reg solver init recs p).refinements, ?_⟩
  simp only [fitPrepared2D, h, Answer2D.solution, Answer2D.status]
  rw [hst]
  rfl

/-- What a successful fit found. -/
theorem CartJob2D.found (j : CartJob2D α β R) (h : j.Succeeds) : ∃ (cands : List Rect) (a : Assign2D R) (sel : List Rect),
    CartCands j.opts j.prepared.m j.prepared.n j.theTree (GoodBlock j.opts j.prepared.nonevents j.prepared.events)
      (blockRate j.prepared.nonevents j.prepared.events) (fun b => b.total j.prepared.events + b.total j.prepared.nonevents)
      (blockValue j.prepared.m j.prepared.n j.prepared.nonevents j.prepared.events j.coef) j.gamma j.program cands ∧
    Feasible2D j.opts j.program.2 a ∧
    (j.fitCart.status = "OPTIMAL" → ∀ b, Feasible2D j.opts j.program.2 b → objective2D j.program.2 b ≤ objective2D j.program.2 a) ∧
    (sel.map Rect.block).toFinset = chosen cands a.x ∧
    ∃ s, (j.grid s).Succeeds ∧ Facts2D (j.grid s).scx (j.grid s).scy (j.grid s).opts (j.grid s).recs (j.grid s).prepared
        (j.grid s).fit sel ∧
      ∃ st rf, j.fitCart = { (j.grid s).fit with status := st, refinements := rf } := by
  obtain ⟨cands, hc⟩ := cart_binary (o := j.opts) (m := j.prepared.m) (n := j.prepared.n) (init := j.initA) h.tree
    j.prepared.nonevents j.prepared.events j.coef j.gamma j.reg
  change CartCands _ _ _ _ _ _ _ _ _ j.program cands at hc
  obtain ⟨a, ha, hsol, hopt⟩ := answer_of_status (h.solver j.program.2) h.status
  have hcov := hc.covers ha
  have hset := sel_toFinset (hc.zero_one ha)
  obtain ⟨ht, hb, htr, hg⟩ := hc.sound ha
  refine ⟨cands, a, select cands ((List.range cands.length).map fun i => a.x i != 0), hc, ha, hopt, hset, ?_⟩
  generalize hsel : select cands ((List.range cands.length).map fun i => a.x i != 0) = sel at *
  have hadm : Admissible2D { j.opts with trendX := none } j.prepared.m j.prepared.n j.prepared.nonevents j.prepared.events
      (chosen cands a.x) :=
    ⟨ht, fun b hb => ⟨(hg b hb).2.2.1, (hg b hb).2.2.2.1⟩, fun b hb => (hg b hb).2.2.2.2.1,
      fun b hb => (hg b hb).2.2.2.2.2.1, fun b hb => (hg b hb).2.2.2.2.2.2, hb, htr⟩
  obtain ⟨s, hs⟩ := exists_spread (fun b => b.total j.prepared.events + b.total j.prepared.nonevents)
    (tiling_nonempty (Nat.succ_pos _) (Nat.succ_pos _) ht)
  obtain ⟨a', ha', hch, _⟩ := binary_complete (coef := j.coef) (gamma := j.gamma) (reg := j.reg) hadm hs
  obtain ⟨rf, hfit⟩ := fitPrepared_eq (scx := j.scx) (scy := j.scy) (init := j.init) (recs := j.recs) (coef := j.coef)
    (gamma := j.gamma) (reg := j.reg) (p := j.prepared)
    (solver := knowsOne a' { j.opts with trendX := none }) (knowsOne_pos ha') rfl
  have hset' := sel_toFinset (cands := (binaryProgram { j.opts with trendX := none } j.prepared.m j.prepared.n
    j.prepared.nonevents j.prepared.events j.coef j.gamma j.reg).1) ha'.dom.1
  rw [hch] at hset'
  have horder : sel = select (binaryProgram { j.opts with trendX := none } j.prepared.m j.prepared.n
        j.prepared.nonevents j.prepared.events j.coef j.gamma j.reg).1
        ((List.range (binaryProgram { j.opts with trendX := none } j.prepared.m j.prepared.n
        j.prepared.nonevents j.prepared.events j.coef j.gamma j.reg).1.length).map fun i => a'.x i != 0) := by
    refine tiling_order hcov ⟨fun s hs => binary_cands s ((select_sublist _ _).mem hs),
      binary_nodup.sublist (select_sublist _ _), ?_⟩ (hsel ▸ hc.sorted.sublist (select_sublist _ _))
      ((candidates_sorted _ _ _).sublist (select_sublist _ _)) ?_
    · rw [hset']; exact ht
    · rw [hset]; exact hset'.symm
  rw [← horder] at hfit
  have hfit' : (j.grid (knowsOne a')).fit = fitWith j.scx j.scy j.recs j.init j.prepared "FEASIBLE" rf sel := hfit
  refine ⟨knowsOne a', ⟨h.wellFormed, fun p => knowsOne_valid _ _ _, Or.inr ?_⟩, ?_, j.fitCart.status, j.fitCart.refinements, ?_⟩
  · rw [hfit']; rfl
  · rw [hfit']
    exact facts_fitWith hcov (by rw [hset]; exact hadm)
  · rw [hfit']
    have e1 : (j.solver j.opts j.program.2).solution j.program.1.length =
        (List.range j.program.1.length).map fun i => a.x i != 0 := hsol _
    simp only [CartJob2D.fitCart]
    rw [e1, hc.selected (a := a), hsel, pMatrixRows_eq]
    simp only [List.map_map, List.length_map, fitWith]
    rfl

end Binary

section Continuous
variable {α β : Type} [DecidableEq α] [DecidableEq β] {Q : Type} [CommRing Q] [LinearOrder Q] [IsStrictOrderedRing Q]

/-- The external parts behave as documented, and the solver found a solution. -/
structure CartJobC2D.Succeeds (j : CartJobC2D α β Q) : Prop where
  wellFormed : j.prepared.WellFormed
  tree : j.theTree.WellFormed
  solver : ∀ p, (j.solver j.opts p).Valid j.opts p
  status : j.fitCart.status = "OPTIMAL" ∨ j.fitCart.status = "FEASIBLE"

/-- The same call with strategy `"grid"`, without a trend in `x`, and with another solver. -/
def CartJobC2D.grid (j : CartJobC2D α β Q) (s : Opts2D → Prog2D Q → Answer2D Q) : JobC2D α β Q :=
  { j.toJobC2D with o := { j.o with trendX := none }, solver := s }

/-- The fitted object with the selected rectangles `sel`. -/
def fitWithC (scx : Option (List (Option α))) (scy : Option (List (Option β))) (recs : List (Rec2 α β ℚ)) (init : ℕ → ℕ)
    (p : Prepared2D α β ℚ) (st : String) (rf : ℕ) (sel : List Rect) : FittedC2D α β :=
  { status := st
    axisX := p.axisX
    axisY := p.axisY
    boxes := (List.range sel.length).map (splitsOptimal p.m p.n p.splitsX p.splitsY (pMatrix p.n init sel))
    rows := sel.map (rowOfRect p.n p.records p.sums p.squares) ++
      [rowOfTargets (special2D scx scy recs), rowOfTargets (missing2D recs)]
    m := p.m
    n := p.n
    P := pMatrix p.n init sel
    refinements := rf }

theorem facts_fitWithC {scx : Option (List (Option α))} {scy : Option (List (Option β))} {recs : List (Rec2 α β ℚ)}
    {init : ℕ → ℕ} {p : Prepared2D α β ℚ} {st : String} {rf : ℕ} {sel : List Rect} {o : Opts2D} (hc : Covers p.m p.n sel)
    (ha : AdmissibleMean2D o p.m p.n p.records p.sums (sel.map Rect.block).toFinset) :
    FactsC2D scx scy o recs init p (fitWithC scx scy recs init p st rf sel) sel := by
  refine ⟨⟨rfl, rfl, hc, ?_⟩, ha, rfl, rfl, rfl, rfl⟩
  refine List.ext_getElem (by simp [fitWithC]) fun i h1 h2 => ?_
  simp only [fitWithC, List.getElem_map, List.getElem_range]
  exact hc.splitsOptimal init p.splitsX p.splitsY (by simpa using h2)

theorem fitPreparedC_eq {scx : Option (List (Option α))} {scy : Option (List (Option β))} {o : Opts2D} {coef : ℚ → Q}
    {gamma : Bool} {reg : ℕ → Q} {solver : Prog2D Q → Answer2D Q} {init : ℕ → ℕ} {recs : List (Rec2 α β ℚ)}
    {p : Prepared2D α β ℚ} {a : Assign2D Q} {st : String}
    (h : solver (continuousProgram o p.m p.n p.records p.sums coef gamma reg).2 = .feasible a) (hst : st = "FEASIBLE") :
    ∃ rf, fitPreparedC2D scx scy o coef gamma reg solver init recs p = fitWithC scx scy recs init p st rf
      (select (continuousProgram o p.m p.n p.records p.sums coef gamma reg).1
        ((List.range (continuousProgram o p.m p.n p.records p.sums coef gamma reg).1.length).map fun i => a.x i != 0)) := by
  refine ⟨(fitPreparedC2D scx scy o coef gamma reg solver init recs p).refinements, ?_⟩
  simp only [fitPreparedC2D, h, Answer2D.solution, Answer2D.status]
  rw [hst]
  rfl

/-- What a successful fit found. -/
theorem CartJobC2D.found (j : CartJobC2D α β Q) (h : j.Succeeds) : ∃ (cands : List Rect) (a : Assign2D Q) (sel : List Rect),
    CartCands j.opts j.prepared.m j.prepared.n j.theTree (GoodMean j.opts j.prepared.records)
      (blockMean j.prepared.records j.prepared.sums) (fun b => b.total j.prepared.records)
      (fun b => j.coef |blockMean j.prepared.records j.prepared.sums b -
        gridMean j.prepared.m j.prepared.n j.prepared.records j.prepared.sums|) j.gamma j.program cands ∧
    Feasible2D j.opts j.program.2 a ∧
    (j.fitCart.status = "OPTIMAL" → ∀ b, Feasible2D j.opts j.program.2 b → objective2D j.program.2 b ≤ objective2D j.program.2 a) ∧
    (sel.map Rect.block).toFinset = chosen cands a.x ∧
    ∃ s, (j.grid s).Succeeds ∧ FactsC2D (j.grid s).scx (j.grid s).scy (j.grid s).opts (j.grid s).recs (j.grid s).init
        (j.grid s).prepared (j.grid s).fit sel ∧
      ∃ st rf, j.fitCart = { (j.grid s).fit with status := st, refinements := rf } := by
  obtain ⟨cands, hc⟩ := cart_continuous (o := j.opts) (m := j.prepared.m) (n := j.prepared.n) (init := j.initA) h.tree
    j.prepared.records j.prepared.sums j.coef j.gamma j.reg
  change CartCands _ _ _ _ _ _ _ _ _ j.program cands at hc
  obtain ⟨a, ha, hsol, hopt⟩ := answer_of_status (h.solver j.program.2) h.status
  have hcov := hc.covers ha
  have hset := sel_toFinset (hc.zero_one ha)
  obtain ⟨ht, hb, htr, hg⟩ := hc.sound ha
  refine ⟨cands, a, select cands ((List.range cands.length).map fun i => a.x i != 0), hc, ha, hopt, hset, ?_⟩
  generalize hsel : select cands ((List.range cands.length).map fun i => a.x i != 0) = sel at *
  have hadm : AdmissibleMean2D { j.opts with trendX := none } j.prepared.m j.prepared.n j.prepared.records j.prepared.sums
      (chosen cands a.x) :=
    ⟨ht, fun b hb => (hg b hb).2.2.1, fun b hb => (hg b hb).2.2.2, hb, htr⟩
  obtain ⟨s, hs⟩ := exists_spread (fun b => b.total j.prepared.records)
    (tiling_nonempty (Nat.succ_pos _) (Nat.succ_pos _) ht)
  obtain ⟨a', ha', hch, _⟩ := cont_complete (coef := j.coef) (gamma := j.gamma) (reg := j.reg) hadm hs
  obtain ⟨rf, hfit⟩ := fitPreparedC_eq (scx := j.scx) (scy := j.scy) (init := j.init) (recs := j.recs) (coef := j.coef)
    (gamma := j.gamma) (reg := j.reg) (p := j.prepared)
    (solver := knowsOne a' { j.opts with trendX := none }) (knowsOne_pos ha') rfl
  have hset' := sel_toFinset (cands := (continuousProgram { j.opts with trendX := none } j.prepared.m j.prepared.n
    j.prepared.records j.prepared.sums j.coef j.gamma j.reg).1) ha'.dom.1
  rw [hch] at hset'
  have horder : sel = select (continuousProgram { j.opts with trendX := none } j.prepared.m j.prepared.n
        j.prepared.records j.prepared.sums j.coef j.gamma j.reg).1
        ((List.range (continuousProgram { j.opts with trendX := none } j.prepared.m j.prepared.n
        j.prepared.records j.prepared.sums j.coef j.gamma j.reg).1.length).map fun i => a'.x i != 0) := by
    refine tiling_order hcov ⟨fun s hs => cont_cands s ((select_sublist _ _).mem hs),
      cont_nodup.sublist (select_sublist _ _), ?_⟩ (hsel ▸ hc.sorted.sublist (select_sublist _ _))
      ((candidates_sorted _ _ _).sublist (select_sublist _ _)) ?_
    · rw [hset']; exact ht
    · rw [hset]; exact hset'.symm
  rw [← horder] at hfit
  have hfit' : (j.grid (knowsOne a')).fit = fitWithC j.scx j.scy j.recs j.init j.prepared "FEASIBLE" rf sel := hfit
  refine ⟨knowsOne a', ⟨h.wellFormed, fun p => knowsOne_valid _ _ _, Or.inr ?_⟩, ?_, j.fitCart.status, j.fitCart.refinements, ?_⟩
  · rw [hfit']; rfl
  · rw [hfit']
    exact facts_fitWithC hcov (by rw [hset]; exact hadm)
  · rw [hfit']
    have e1 : (j.solver j.opts j.program.2).solution j.program.1.length =
        (List.range j.program.1.length).map fun i => a.x i != 0 := hsol _
    simp only [CartJobC2D.fitCart]
    rw [e1, hc.selected (a := a), hsel, pMatrixRows_eq]
    simp only [List.map_map, List.length_map, fitWithC]
    rfl

end Continuous

end OptBinning
