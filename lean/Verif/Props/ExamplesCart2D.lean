import Verif.Props.CartOpt2D
import Mathlib.Tactic.IntervalCases

/-!
# Concrete cases for C93 and C94
-/
namespace OptBinning

open Spec

/-- Four columns (cuts 1, 2, 3), two rows (cut 1). -/
def exCartRecs : List (Rec2 ℕ ℕ Bool) :=
  [⟨some 0, some 0, some true⟩, ⟨some 0, some 1, some false⟩, ⟨some 1, some 0, some false⟩, ⟨some 1, some 1, some true⟩,
   ⟨some 2, some 0, some false⟩, ⟨some 2, some 0, some false⟩, ⟨some 3, some 0, some true⟩,
   ⟨some 2, some 1, some false⟩, ⟨some 3, some 1, some true⟩, ⟨some 3, some 1, some true⟩,
   ⟨none, some 0, some true⟩, ⟨some 9, some 1, some false⟩]

/-- `x ≤ 1.5`: then column 0 or column 1; otherwise `y ≤ 0.5` and in both cases `x ≤ 2.5`. -/
def exCartTree : CartTree where
  left := [1, 2, -1, -1, 5, 6, -1, -1, 9, -1, -1]
  right := [4, 3, -1, -1, 8, 7, -1, -1, 10, -1, -1]
  threshold := [3 / 2, 1 / 2, -2, -2, 1 / 2, 5 / 2, -2, -2, 5 / 2, -2, -2]
  feature := [0, 0, -2, -2, 1, 0, -2, -2, 0, -2, -2]

def exCartPrep : Prepared2D ℕ ℕ Bool :=
  prepare2D (.numerical fun k => fin k) (.numerical fun k => fin k) (some [some 9]) none (fun _ => [fin 1, fin 2, fin 3])
    (fun _ => [fin 1]) exCartRecs

def exCartOpts : Opts2D := { minBins := some 3, trendX := some .ascending }

def exCartRows : List (List ℕ) :=
  cartRows 2 4 (exCartTree.matrix fun _ _ => 0) (keepBinary exCartOpts (ravel 4 exCartPrep.nonevents) (ravel 4 exCartPrep.events))

noncomputable def exCart : CartJob2D ℕ ℕ ℤ where
  dx := .numerical fun k => fin k
  dy := .numerical fun k => fin k
  scx := some [some 9]
  o := exCartOpts
  coef := cpCoef .iv
  reg := fun _ => 0
  prebinX := fun _ => [fin 1, fin 2, fin 3]
  prebinY := fun _ => [fin 1]
  solver := idealSolver
  init := fun _ => 0
  recs := exCartRecs
  tree := fun _ => exCartTree
  initA := fun _ _ => 0

set_option synthInstance.maxSize 2000 in
set_option synthInstance.maxHeartbeats 200000 in
theorem exCartTree_wellFormed : exCartTree.WellFormed := by
  refine ⟨rfl, by decide, ?_, ?_⟩
  · intro p hp
    have hp : p < 11 := hp
    interval_cases p
    · exact Or.inr ⟨1, 4, by decide⟩
    · exact Or.inr ⟨2, 3, by decide⟩
    · exact Or.inl (by decide)
    · exact Or.inl (by decide)
    · exact Or.inr ⟨5, 8, by decide⟩
    · exact Or.inr ⟨6, 7, by decide⟩
    · exact Or.inl (by decide)
    · exact Or.inl (by decide)
    · exact Or.inr ⟨9, 10, by decide⟩
    · exact Or.inl (by decide)
    · exact Or.inl (by decide)
  · have key : ∀ c : ℕ, c < 11 → 0 < c → ∃ p ∈ List.range 11, ∃ s ∈ [true, false], (if s then exCartTree.left.getD p 0 else exCartTree.right.getD p 0) = (c : ℤ) ∧
        ∀ p' ∈ List.range 11, ∀ s' ∈ [true, false], (if s' then exCartTree.left.getD p' 0 else exCartTree.right.getD p' 0) = (c : ℤ) → p' = p ∧ s' = s := by
      decide
    intro c hc h0
    obtain ⟨p, hp, s, _, h1, h2⟩ := key c hc h0
    refine ⟨(p, s), ⟨List.mem_range.1 hp, h1⟩, ?_⟩
    rintro ⟨p', s'⟩ ⟨hp', h'⟩
    obtain ⟨rfl, rfl⟩ := h2 p' (List.mem_range.2 hp') s' (by cases s' <;> simp) h'
    rfl

theorem exCartRows_eq : exCartRows = [[0, 1, 4, 5], [0, 1, 2, 4, 5, 6], [0, 1, 2, 3, 4, 5, 6, 7], [1, 2, 5, 6], [1, 2, 3, 5, 6, 7],
    [2, 3], [2, 3, 6, 7], [6, 7]] := by decide +kernel

theorem exCart_rows : exCart.program.1 = exCartRows := by
  rw [exCartRows_eq]
  decide +kernel

theorem exCart_nRect : exCart.program.2.nRect = 8 := by decide +kernel

theorem exCart_nGrid : exCart.program.2.nGrid = 8 := by decide +kernel

theorem CartJob2D.cols_eq {α β R : Type} [DecidableEq α] [DecidableEq β] (j : CartJob2D α β R) :
    j.program.2.cols = colsOf j.program.1 := rfl

theorem exCart_cols : exCart.program.2.cols = colsOf exCartRows := by rw [CartJob2D.cols_eq, exCart_rows]

/-- The values of the variables for "left half, top right, bottom right". -/
def exCartX (i : ℕ) : ℤ := if i = 0 ∨ i = 5 ∨ i = 7 then 1 else 0

theorem exCart_monoX : ∀ i < 8, forbidden .ascending 0 exCart.program.2.er i (exCart.program.2.connX i) ≠ [] →
    ((forbidden .ascending 0 exCart.program.2.er i (exCart.program.2.connX i)).map exCartX).sum ≤
      ((forbidden .ascending 0 exCart.program.2.er i (exCart.program.2.connX i)).length : ℤ) * (1 - exCartX i) := by
  decide +kernel

theorem exCart_feasible : Feasible2D exCart.opts exCart.program.2 ⟨exCartX, 0, 0, 0⟩ := by
  refine ⟨⟨?_, ?_, ?_⟩, ?_, ?_, ?_, ?_, ?_⟩
  · intro i _
    simp only [exCartX]
    split <;> simp
  · intro lo hi _ h
    cases h
  · intro h
    cases h
  · have : ∀ j < 8, ((colsOf exCartRows j).map exCartX).sum = 1 := by decide +kernel
    rw [exCart_nGrid, exCart_cols]
    exact this
  · show ((List.range exCart.program.2.nRect).map exCartX).sum ≥ 3
    rw [exCart_nRect]
    decide
  · show ∀ i < exCart.program.2.nRect, _
    rw [exCart_nRect]
    exact exCart_monoX
  · exact trivial
  · intro h
    cases h

theorem exCart_unique {a : Assign2D ℤ} (h : Feasible2D exCart.opts exCart.program.2 a) :
    ∀ i < 8, a.x i = exCartX i := by
  have hx : ∀ i < 8, a.x i = 0 ∨ a.x i = 1 := exCart_nRect ▸ h.dom.1
  have hb : ((List.range exCart.program.2.nRect).map a.x).sum ≥ 3 := h.bins
  rw [exCart_nRect] at hb
  have hu : ∀ j < 8, ((colsOf exCartRows j).map a.x).sum = 1 := by
    have := h.unique
    rwa [exCart_nGrid, exCart_cols] at this
  have c0 : colsOf exCartRows 0 = [0, 1, 2] := by decide +kernel
  have c1 : colsOf exCartRows 1 = [0, 1, 2, 3, 4] := by decide +kernel
  have c2 : colsOf exCartRows 2 = [1, 2, 3, 4, 5, 6] := by decide +kernel
  have c3 : colsOf exCartRows 3 = [2, 4, 5, 6] := by decide +kernel
  have c7 : colsOf exCartRows 7 = [2, 4, 6, 7] := by decide +kernel
  have u0 := hu 0 (by omega)
  have u1 := hu 1 (by omega)
  have u2 := hu 2 (by omega)
  have u3 := hu 3 (by omega)
  have u7 := hu 7 (by omega)
  rw [c0] at u0
  rw [c1] at u1
  rw [c2] at u2
  rw [c3] at u3
  rw [c7] at u7
  simp only [List.range_succ, List.range_zero, List.nil_append, List.map_append, List.map_cons, List.map_nil, List.sum_append, List.sum_cons, List.sum_nil] at hb u0 u1 u2 u3 u7
  have h0 := hx 0 (by omega)
  have h1 := hx 1 (by omega)
  have h2 := hx 2 (by omega)
  have h3 := hx 3 (by omega)
  have h4 := hx 4 (by omega)
  have h5 := hx 5 (by omega)
  have h6 := hx 6 (by omega)
  have h7 := hx 7 (by omega)
  have e : a.x 0 = 1 ∧ a.x 1 = 0 ∧ a.x 2 = 0 ∧ a.x 3 = 0 ∧ a.x 4 = 0 ∧ a.x 5 = 1 ∧ a.x 6 = 0 ∧ a.x 7 = 1 := by omega
  obtain ⟨e0, e1, e2, e3, e4, e5, e6, e7⟩ := e
  intro i hi
  interval_cases i <;> simp only [exCartX, e0, e1, e2, e3, e4, e5, e6, e7] <;> decide

theorem exCart_status : exCart.fitCart.status = "OPTIMAL" := idealSolver_optimal ⟨_, exCart_feasible⟩

theorem exCart_succeeds : exCart.Succeeds := by
  refine ⟨⟨?_, ?_, trivial, trivial, ?_⟩, exCartTree_wellFormed, fun p => idealSolver_valid _ p, Or.inl exCart_status⟩
  · have h1 : [fin 1, fin 2, fin 3].Pairwise (· < ·) := by decide +kernel
    have h2 : ∀ v ∈ [fin 1, fin 2, fin 3], v ≠ ⊥ ∧ v ≠ ⊤ := by decide +kernel
    exact ⟨h1, h2⟩
  · have h1 : [fin 1].Pairwise (· < ·) := by decide +kernel
    have h2 : ∀ v ∈ [fin 1], v ≠ ⊥ ∧ v ≠ ⊤ := by decide +kernel
    exact ⟨h1, h2⟩
  · have : ∀ r ∈ exCartPrep.clean, fin r.1 ≠ ⊤ ∧ fin r.2.1 ≠ ⊤ := by decide +kernel
    exact this

theorem exCart_solution : (exCart.solver exCart.opts exCart.program.2).solution 8 =
    [true, false, false, false, false, true, false, true] := by
  have hst : (exCart.solver exCart.opts exCart.program.2).status = "OPTIMAL" := exCart_status
  have hv := idealSolver_valid exCart.opts exCart.program.2
  change (exCart.solver exCart.opts exCart.program.2).Valid _ _ at hv
  cases e : exCart.solver exCart.opts exCart.program.2 with
  | optimal a =>
    rw [e] at hv
    have := exCart_unique hv.1
    simp only [Answer2D.solution]
    rw [List.map_congr_left (g := fun i => exCartX i != 0) fun i hi => by rw [this i (List.mem_range.1 hi)]]
    decide
  | feasible a => rw [e] at hst; simp [Answer2D.status] at hst
  | failed s => rw [e] at hst hv; exact absurd hst hv.1

/-- **C93 (false half).** With `strategy="cart"` the trend in `x` is enforced only from the last cell of a bin: here
`monotonic_trend_x="ascending"`, the solver reports OPTIMAL, bin 1 follows bin 0 in direction `x`, and yet its event rate
1/3 is below the 1/2 of bin 0. -/
theorem C93_trend_x_not_enforced : ∃ (j : CartJob2D ℕ ℕ ℤ) (_ : j.Succeeds) (h0 : 0 < j.fitCart.boxes.length)
    (h1 : 1 < j.fitCart.boxes.length), j.fitCart.status = "OPTIMAL" ∧ j.o.trendX = some .ascending ∧ j.o.minDiffX = 0 ∧
    BoxNextX j.fitCart.boxes[0] j.fitCart.boxes[1] ∧ j.fitCart.rate 0 = 1 / 2 ∧ j.fitCart.rate 1 = 1 / 3 := by
  have hsel : select exCart.program.1 ((exCart.solver exCart.opts exCart.program.2).solution exCart.program.1.length) =
      [[0, 1, 4, 5], [2, 3], [6, 7]] := by
    rw [exCart_rows, exCartRows_eq]
    show select _ ((exCart.solver exCart.opts exCart.program.2).solution 8) = _
    rw [exCart_solution]
    decide
  have hb : exCart.fitCart.boxes = (List.range 3).map (splitsOptimal 2 4 exCartPrep.splitsX exCartPrep.splitsY
      (pMatrixRows (fun _ => 0) [[0, 1, 4, 5], [2, 3], [6, 7]])) := by
    simp only [CartJob2D.fitCart, hsel]
    rfl
  have he : exCart.fitCart.event = [[0, 1, 4, 5], [2, 3], [6, 7]].map (fun row => (row.map (ravel 4 exCartPrep.events)).sum) ++
      [(special2D (some [some 9]) (none : Option (List (Option ℕ))) exCartRecs).countP (· != some false),
        (missing2D exCartRecs).countP (· != some false)] := by
    simp only [CartJob2D.fitCart, hsel]
    rfl
  have hne : exCart.fitCart.nonevent = [[0, 1, 4, 5], [2, 3], [6, 7]].map (fun row => (row.map (ravel 4 exCartPrep.nonevents)).sum) ++
      [(special2D (some [some 9]) (none : Option (List (Option ℕ))) exCartRecs).countP (· == some false),
        (missing2D exCartRecs).countP (· == some false)] := by
    simp only [CartJob2D.fitCart, hsel]
    rfl
  have hl : exCart.fitCart.boxes.length = 3 := by rw [hb]; rfl
  refine ⟨exCart, exCart_succeeds, by omega, by omega, exCart_status, rfl, rfl, ?_, ?_, ?_⟩
  · have key : BoxNextX (splitsOptimal 2 4 exCartPrep.splitsX exCartPrep.splitsY
        (pMatrixRows (fun _ => 0) [[0, 1, 4, 5], [2, 3], [6, 7]]) 0) (splitsOptimal 2 4 exCartPrep.splitsX exCartPrep.splitsY
        (pMatrixRows (fun _ => 0) [[0, 1, 4, 5], [2, 3], [6, 7]]) 1) := by
      unfold BoxNextX
      decide +kernel
    simp only [hb]
    exact key
  · simp only [Fitted2D.rate, Fitted2D.count, he, hne]
    decide +kernel
  · simp only [Fitted2D.rate, Fitted2D.count, he, hne]
    decide +kernel

/-- Columns 0 and 1 of the first row: different leaves, which end in the same bin; a bin count within the limit. -/
example : 2 * exCart.fitCart.boxes.length ≤ 6 := C93_number_of_bins exCart exCart_succeeds

example : 3 ≤ exCart.fitCart.boxes.length := by
  have := (C93_limits exCart exCart_succeeds).2.1 3 rfl
  exact_mod_cast this

/-- `x = 0` whatever `y`: the same leaf. -/
example : SameLeaf exCart.theTree (exCart.cell 0 0).1 (exCart.cell 0 0).2 (exCart.cell 0 1).1 (exCart.cell 0 1).2 := by
  have e0 : exCart.cell 0 0 = (0, 0) := by decide +kernel
  have e1 : exCart.cell 0 1 = (1, 0) := by decide +kernel
  rw [e0, e1]
  refine ⟨2, ⟨?_, by decide, by decide⟩, ⟨?_, by decide, by decide⟩⟩ <;>
  · refine (Relation.ReflTransGen.single (b := 1) ?_).tail ?_ <;>
    · refine ⟨by decide, ?_⟩
      show ite _ _ _
      rw [if_pos] <;> decide +kernel

end OptBinning
