import Verif.Props.Binning2D
import Verif.Model.Fit2DC

/-!
# The bins of a two-dimensional binning, for any target
-/
namespace OptBinning

open Spec

set_option linter.unusedSectionVars false

variable {α β τ : Type} [DecidableEq α] [DecidableEq β]

/-- The bins `boxes` with axes `ax`, `ay` come from the rectangles `sel`, which tile the grid. -/
structure Geo (p : Prepared2D α β τ) (ax : Axis α) (ay : Axis β) (boxes : List Box2) (sel : List Rect) : Prop where
  axisX : ax = p.axisX
  axisY : ay = p.axisY
  covers : Covers p.m p.n sel
  boxes : boxes = sel.map fun t => boxOf p.splitsX p.splitsY t.block

variable {p : Prepared2D α β τ} {ax : Axis α} {ay : Axis β} {boxes : List Box2} {sel : List Rect}

theorem Geo.length (g : Geo p ax ay boxes sel) : boxes.length = sel.length := by rw [g.boxes]; simp

theorem Geo.inside (g : Geo p ax ay boxes sel) {i : ℕ} (hi : i < sel.length) : sel[i].block.Inside p.m p.n :=
  allRects_inside (g.covers.rects _ (List.getElem_mem hi))

theorem Geo.inBox (g : Geo p ax ay boxes sel) (hw : p.WellFormed) {u : α} {v : β} (hu : Known ax u)
    (hv : Known ay v) {i : ℕ} (hi : i < boxes.length) (hi' : i < sel.length) :
    InBox ax ay boxes[i] u v ↔ sel[i].block.Mem (p.row v) (p.col u) := by
  rw [g.axisX] at hu ⊢
  rw [g.axisY] at hv ⊢
  rw [← Prepared2D.inBox_iff hw (g.inside hi') hu hv]
  simp only [g.boxes, List.getElem_map]

theorem Geo.partition (g : Geo p ax ay boxes sel) (hw : p.WellFormed) {u : α} {v : β} (hu : Known ax u) (hv : Known ay v) :
    ∃! i, ∃ hi : i < boxes.length, InBox ax ay boxes[i] u v := by
  have hl := g.length
  obtain ⟨i, hi, hm, hun⟩ := g.covers.exists_unique (p.row_lt v) (p.col_lt u)
  refine ⟨i, ⟨by omega, (g.inBox hw hu hv _ hi).2 hm⟩, ?_⟩
  rintro k ⟨hk, hkm⟩
  exact hun k (by omega) ((g.inBox hw hu hv hk (by omega)).1 hkm)

theorem Geo.box_eq (g : Geo p ax ay boxes sel) {i : ℕ} (hi : i < boxes.length) (hi' : i < sel.length) :
    boxes[i] = boxOf p.splitsX p.splitsY sel[i].block := by
  simp only [g.boxes, List.getElem_map]

theorem Geo.mask_iff (g : Geo p ax ay boxes sel) (hw : p.WellFormed) (u : α) (v : β) {i : ℕ} (hi : i < boxes.length) :
    (ax.inMask boxes[i].xlo boxes[i].xhi u && ay.inMask boxes[i].ylo boxes[i].yhi v) = true ↔ InBox ax ay boxes[i] u v := by
  have hl := g.length
  have hlt : boxes[i].xlo < boxes[i].xhi ∧ boxes[i].ylo < boxes[i].yhi := by
    rw [g.box_eq hi (by omega)]
    exact boxOf_lt hw (g.inside _)
  rw [Bool.and_eq_true, inMask_iff hlt.1, inMask_iff hlt.2]
  rfl

theorem Geo.transform (g : Geo p ax ay boxes sel) (hw : p.WellFormed) {γ : Type} (mv : ℕ → γ) (dflt : γ) {u : α} {v : β}
    (hu : Known ax u) (hv : Known ay v) {i : ℕ} (hi : i < boxes.length) (hb : InBox ax ay boxes[i] u v) :
    transformClean2D ax ay boxes mv dflt u v = mv i := by
  obtain ⟨k, ⟨hk, hkb⟩, hun⟩ := g.partition hw hu hv
  have hik : i = k := hun i ⟨hi, hb⟩
  subst hik
  have := foldl_unique (fun b : Box2 => ax.inMask b.xlo b.xhi u && ay.inMask b.ylo b.yhi v) mv
    boxes 0 dflt i hi ((g.mask_iff hw u v hi).2 hb) fun q hq hne => by
      rw [← Bool.not_eq_true, g.mask_iff hw u v hq]
      exact fun hqb => hne (hun q ⟨hq, hqb⟩)
  rw [Nat.zero_add] at this
  exact this

theorem Geo.transform_none (g : Geo p ax ay boxes sel) (hw : p.WellFormed) {γ : Type} (mv : ℕ → γ) (dflt : γ) {u : α} {v : β}
    (hno : ∀ i (hi : i < boxes.length), ¬ InBox ax ay boxes[i] u v) :
    transformClean2D ax ay boxes mv dflt u v = dflt := by
  refine foldl_none2D (fun b : Box2 => ax.inMask b.xlo b.xhi u && ay.inMask b.ylo b.yhi v) mv boxes 0 dflt fun b hb => ?_
  obtain ⟨i, hi, rfl⟩ := List.getElem_of_mem hb
  rw [← Bool.not_eq_true, g.mask_iff hw u v hi]
  exact hno i hi

theorem Geo.next_iff (g : Geo p ax ay boxes sel) (hw : p.WellFormed) {i k : ℕ} (hi : i < boxes.length)
    (hk : k < boxes.length) (hi' : i < sel.length) (hk' : k < sel.length) :
    (BoxNextX boxes[i] boxes[k] ↔ NextInX sel[i].block sel[k].block) ∧
    (BoxNextY boxes[i] boxes[k] ↔ NextInY sel[i].block sel[k].block) := by
  rw [g.box_eq hi hi', g.box_eq hk hk']
  exact boxNext_iff hw (g.inside _) (g.inside _)

theorem Geo.mem {i : ℕ} (hi : i < sel.length) : sel[i].block ∈ (sel.map Rect.block).toFinset := by
  rw [List.mem_toFinset]; exact List.mem_map_of_mem (List.getElem_mem hi)

/-- Neighbouring bins follow the trends. -/
theorem Geo.neighbours (g : Geo p ax ay boxes sel) (hw : p.WellFormed) {o : Opts2D} {rate : Block → ℚ}
    (ht : TrendsHold o (sel.map Rect.block).toFinset rate) {val : ℕ → ℚ}
    (hval : ∀ i (hi : i < sel.length), val i = rate sel[i].block) {i k : ℕ} (hi : i < boxes.length) (hk : k < boxes.length) :
    (BoxNextX boxes[i] boxes[k] → StepOK o.trendX o.minDiffX (val i) (val k)) ∧
    (BoxNextY boxes[i] boxes[k] → StepOK o.trendY o.minDiffY (val i) (val k)) := by
  have hl := g.length
  have his : i < sel.length := by omega
  have hks : k < sel.length := by omega
  have hn := g.next_iff hw hi hk his hks
  rw [hn.1, hn.2, hval i his, hval k hks]
  exact ⟨ht.1 _ (Geo.mem his) _ (Geo.mem hks), ht.2 _ (Geo.mem his) _ (Geo.mem hks)⟩

/-- Along lines the value never moves against the trends. -/
theorem Geo.along_lines (g : Geo p ax ay boxes sel) (hw : p.WellFormed) {o : Opts2D} {rate : Block → ℚ}
    (htr : TrendsHold o (sel.map Rect.block).toFinset rate) {val : ℕ → ℚ}
    (hval : ∀ i (hi : i < sel.length), val i = rate sel[i].block) {u u' : α} {v v' : β} (hu : Known ax u)
    (hu' : Known ax u') (hv : Known ay v) (hv' : Known ay v') {i k : ℕ}
    (hi : i < boxes.length) (hk : k < boxes.length)
    (hib : InBox ax ay boxes[i] u v) (hkb : InBox ax ay boxes[k] u' v') :
    (v = v' → ax.code u ≤ ax.code u' → 0 ≤ o.minDiffX →
      (o.trendX = some .ascending → val i ≤ val k) ∧ (o.trendX = some .descending → val k ≤ val i)) ∧
    (u = u' → ay.code v ≤ ay.code v' → 0 ≤ o.minDiffY →
      (o.trendY = some .ascending → val i ≤ val k) ∧ (o.trendY = some .descending → val k ≤ val i)) := by
  have hl := g.length
  have his : i < sel.length := by omega
  have hks : k < sel.length := by omega
  have m1 := Geo.mem his
  have m2 := Geo.mem hks
  have b1 := (g.inBox hw hu hv hi his).1 hib
  have b2 := (g.inBox hw hu' hv' hk hks).1 hkb
  rw [hval i his, hval k hks]
  constructor
  · rintro rfl hle hd
    rw [g.axisX] at hle
    have hcol := col_mono hle
    have e : p.col u' = p.col u + (p.col u' - p.col u) := by omega
    have hlt := p.col_lt u'
    rw [e] at b2 hlt
    constructor
    · intro ht
      refine (line_step g.covers.tiling hd (t := .ascending) ?_ (p.row_lt v) _ _ hlt m1 m2 b1 b2).1 rfl
      intro a ha b hb hab
      have := htr.1 a ha b hb hab
      rwa [ht] at this
    · intro ht
      refine (line_step g.covers.tiling hd (t := .descending) ?_ (p.row_lt v) _ _ hlt m1 m2 b1 b2).2 rfl
      intro a ha b hb hab
      have := htr.1 a ha b hb hab
      rwa [ht] at this
  · rintro rfl hle hd
    rw [g.axisY] at hle
    have hrow := row_mono hle
    have e : p.row v' = p.row v + (p.row v' - p.row v) := by omega
    have hlt := p.row_lt v'
    rw [e] at b2 hlt
    constructor
    · intro ht
      refine (line_step_y g.covers.tiling hd (t := .ascending) ?_ (p.col_lt u) _ _ hlt m1 m2 b1 b2).1 rfl
      intro a ha b hb hab
      have := htr.2 a ha b hb hab
      rwa [ht] at this
    · intro ht
      refine (line_step_y g.covers.tiling hd (t := .descending) ?_ (p.col_lt u) _ _ hlt m1 m2 b1 b2).2 rfl
      intro a ha b hb hab
      have := htr.2 a ha b hb hab
      rwa [ht] at this

end OptBinning
