import Verif.Lemmas.CartCands
import Verif.Lemmas.Continuous2D
import Verif.Lemmas.Records2D

/-!
# The program of strategy `"cart"` and the tilings by unions of leaves
-/
namespace OptBinning

open Spec

set_option linter.unusedSectionVars false

variable {m n : ℕ} {cands : List Rect}

theorem isUnion_iff {A : ℕ → ℕ → ℕ} {s : Rect} (hs : s ∈ allRects m n) : IsUnion m n A (cartPath A s) s ↔
    ∀ r c r' c', r < m → c < n → r' < m → c' < n → A r c = A r' c' → s.block.Mem r c → s.block.Mem r' c' := by
  constructor
  · intro h r c r' c' hr hc hr' hc' e hm
    exact (h r' hr' c' hc').1 (e ▸ (h r hr c hc).2 hm)
  · intro h r hr c hc
    rw [mem_cartPath]
    constructor
    · rintro ⟨r', c', hm, e⟩
      obtain ⟨a, b⟩ := mem_inside hs hm
      exact h r' c' r c a b hr hc e hm
    · intro hm
      exact ⟨r, c, hm, rfl⟩

theorem isUnion_leaves {t : CartTree} (hw : t.WellFormed) (init : ℕ → ℕ → ℕ) {s : Rect} (hs : s ∈ allRects m n) :
    IsUnion m n (t.matrix init) (cartPath (t.matrix init) s) s ↔ UnionOfLeaves t m n s.block := by
  rw [isUnion_iff hs]
  simp only [matrix_eq_iff hw init, UnionOfLeaves]

theorem twoLeaves_iff {t : CartTree} (hw : t.WellFormed) (init : ℕ → ℕ → ℕ) {s : Rect} :
    1 < (cartPath (t.matrix init) s).card ↔ TwoLeaves t s.block := by
  rw [Finset.one_lt_card]
  simp only [mem_cartPath, TwoLeaves, ← matrix_eq_iff hw init]
  constructor
  · rintro ⟨_, ⟨r, c, h1, rfl⟩, _, ⟨r', c', h2, rfl⟩, hne⟩
    exact ⟨r, c, r', c', h1, h2, hne⟩
  · rintro ⟨r, c, r', c', h1, h2, hne⟩
    exact ⟨_, ⟨r, c, h1, rfl⟩, _, ⟨r', c', h2, rfl⟩, hne⟩

section
variable {R : Type*} [CommRing R] [LinearOrder R] [IsStrictOrderedRing R]
  {er : ℕ → ℚ} {records : ℕ → ℕ} {c : ℕ → R} {gamma : Bool} {reg : R} {o : Opts2D}

/-- `outer_y` may be the whole rectangle: the cells below an inner cell are in the same rectangle. -/
theorem cart_connY (hc : ∀ t ∈ cands, t ∈ allRects m n) {i : ℕ} (hi : i < cands.length) :
    (cartProgram m n (cands.map (Rect.row n)) er records c gamma reg).connY i =
      (program2D m n cands er records c gamma reg).connY i := by
  have ho : (cands.map (Rect.outerY n)).getD i [] = cands[i].outerY n := by
    rw [List.getD_eq_getElem _ _ (by simpa using hi)]; simp
  have hr : (cands.map (Rect.row n)).getD i [] = cands[i].row n := by
    rw [List.getD_eq_getElem _ _ (by simpa using hi)]; simp
  have hi' : i < (cands.map (Rect.row n)).length := by simpa using hi
  simp only [cartProgram, program2D, ho, hr]
  have hs := mem_allRects.1 (hc _ (List.getElem_mem hi))
  unfold connectedTo
  refine List.filter_congr fun j hj => ?_
  have h1 := mem_connectedTo (pairs := pairsY m n) (outer := cands[i].row n) (j := j) hi'
  have h2 := mem_connectedTo (pairs := pairsY m n) (outer := cands[i].outerY n) (j := j) hi'
  simp only [connectedTo, List.mem_filter, hj, true_and] at h1 h2
  rw [Bool.eq_iff_iff, h1, h2]
  refine exists_congr fun hjl => and_congr_left fun hap => ?_
  simp only [List.length_map] at hjl
  simp only [List.getElem_map] at hap ⊢
  have ht := mem_allRects.1 (hc _ (List.getElem_mem hjl))
  constructor
  · rintro ⟨p, q, hp, hpq, hq⟩
    obtain ⟨r, hr', cc, hcc, rfl, rfl⟩ := mem_pairsY.1 hpq
    refine ⟨_, _, (mem_outerY hs.1 _).2 ?_, hpq, hq⟩
    rw [mem_row_cell hs.2.2.2 hcc] at hp
    have : ¬ cands[i].block.Mem (r + 1) cc := fun h =>
      hap ⟨(r + 1) * n + cc, (mem_row_cell hs.2.2.2 hcc).2 h, hq⟩
    simp only [Block.Mem, Rect.block] at hp this
    refine ⟨cc - cands[i].j, by omega, ?_⟩
    congr 2 <;> omega
  · rintro ⟨p, q, hp, hpq, hq⟩
    refine ⟨p, q, ?_, hpq, hq⟩
    obtain ⟨b, hb, rfl⟩ := (mem_outerY hs.1 _).1 hp
    rw [mem_row_cell hs.2.2.2 (by omega)]
    simp only [Block.Mem, Rect.block]
    omega

theorem getLastD_row {s : Rect} (hs : s ∈ allRects m n) : (s.row n).getLastD 0 ∈ s.outerX n := by
  have h := mem_allRects.1 hs
  obtain ⟨i, j, k, l⟩ := s
  obtain ⟨k, rfl⟩ : ∃ k', k = k' + 1 := ⟨k - 1, by simp only at h; omega⟩
  obtain ⟨l, rfl⟩ : ∃ l', l = l' + 1 := ⟨l - 1, by simp only at h; omega⟩
  rw [mem_outerX (by simp)]
  refine ⟨k, by simp, ?_⟩
  simp only [Rect.row, cachedRectangle, List.range_succ (n := k), List.range_succ (n := l), List.flatMap_append,
    List.flatMap_cons, List.flatMap_nil, List.append_nil, List.map_append, List.map_cons, List.map_nil, ← List.append_assoc]
  rw [List.getLastD_concat]
  have : (i + k) * n = i * n + n * k := by ring
  omega

/-- `outer_x` is only the last cell, so some constraints are missing. -/
theorem cart_connX (hc : ∀ t ∈ cands, t ∈ allRects m n) {i j : ℕ} (hi : i < cands.length)
    (h : j ∈ (cartProgram m n (cands.map (Rect.row n)) er records c gamma reg).connX i) :
    j ∈ (program2D m n cands er records c gamma reg).connX i := by
  have ho : (cands.map (Rect.outerX n)).getD i [] = cands[i].outerX n := by
    rw [List.getD_eq_getElem _ _ (by simpa using hi)]; simp
  have hr : (cands.map (Rect.row n)).getD i [] = cands[i].row n := by
    rw [List.getD_eq_getElem _ _ (by simpa using hi)]; simp
  have hi' : i < (cands.map (Rect.row n)).length := by simpa using hi
  simp only [cartProgram, program2D, ho, hr] at h ⊢
  rw [mem_connectedTo hi'] at h ⊢
  obtain ⟨hj, ⟨p, q, hp, hpq, hq⟩, hap⟩ := h
  refine ⟨hj, ⟨p, q, ?_, hpq, hq⟩, hap⟩
  rw [List.mem_singleton.1 hp]
  exact getLastD_row (hc _ (List.getElem_mem hi))

theorem monotone2D_congr {t : Option Trend2D} {d : ℚ} {N : ℕ} {conn conn' : ℕ → List ℕ} {x : ℕ → ℤ}
    (h : ∀ i < N, conn i = conn' i) : monotone2D t d er N conn x ↔ monotone2D t d er N conn' x := by
  cases t with
  | none => simp [monotone2D]
  | some t =>
    simp only [monotone2D]
    refine forall_congr' fun i => ?_
    constructor <;> intro h1 hi <;> have := h1 hi <;> rw [h i hi] at * <;> exact this

/-- A solution for `"cart"` is a solution of the program of the same rectangles without the trend in `x`. -/
theorem cart_feasible (hc : ∀ t ∈ cands, t ∈ allRects m n) {a : Assign2D R}
    (h : Feasible2D o (cartProgram m n (cands.map (Rect.row n)) er records c gamma reg) a) :
    Feasible2D { o with trendX := none } (program2D m n cands er records c gamma reg) a := by
  have hl : (cands.map (Rect.row n)).length = cands.length := by simp
  refine ⟨?_, ?_, ?_, trivial, ?_, ?_⟩
  · simpa only [domains2D, Prog2D.totalRecords, cartProgram, program2D, hl] using h.dom
  · exact h.unique
  · simpa only [minMaxBins2D, cartProgram, program2D, hl] using h.bins
  · have h1 := h.monoY
    have e : (cartProgram m n (cands.map (Rect.row n)) er records c gamma reg).nRect = cands.length := hl
    rw [e] at h1
    exact (monotone2D_congr fun i hi => cart_connY hc hi).1 h1
  · simpa only [dominating2D, Prog2D.totalRecords, cartProgram, program2D, hl] using h.dominating

theorem forbidden_mono {t : Trend2D} {d : ℚ} {conn conn' : List ℕ} {i : ℕ} (h : ∀ j ∈ conn, j ∈ conn') :
    ∀ j ∈ forbidden t d er i conn, j ∈ forbidden t d er i conn' := by
  intro j hj
  rw [forbidden, List.mem_filter] at hj ⊢
  exact ⟨h j hj.1, hj.2⟩

/-- Conversely, a solution of the program of the same rectangles is a solution for `"cart"`. -/
theorem feasible_cart (hc : ∀ t ∈ cands, t ∈ allRects m n) {a : Assign2D R}
    (h : Feasible2D o (program2D m n cands er records c gamma reg) a) :
    Feasible2D o (cartProgram m n (cands.map (Rect.row n)) er records c gamma reg) a := by
  have hl : (cands.map (Rect.row n)).length = cands.length := by simp
  refine ⟨?_, ?_, ?_, ?_, ?_, ?_⟩
  · simpa only [domains2D, Prog2D.totalRecords, cartProgram, program2D, hl] using h.dom
  · exact h.unique
  · simpa only [minMaxBins2D, cartProgram, program2D, hl] using h.bins
  · have e : (cartProgram m n (cands.map (Rect.row n)) er records c gamma reg).nRect = cands.length := hl
    rw [e]
    have hx := h.dom.1
    have h1 := h.monoX
    have hlt : ∀ i < cands.length, ∀ j ∈ (program2D m n cands er records c gamma reg).connX i, j < cands.length :=
      fun i _ j hj => conn_lt (outer := fun i => (cands.map (Rect.outerX n)).getD i []) hj
    rw [monotone2D_iff hx (fun i hi j hj => hlt i hi j (cart_connX hc hi hj))]
    intro i hi j hj
    exact (monotone2D_iff hx hlt).1 h1 i hi j (cart_connX hc hi hj)
  · have h1 := h.monoY
    have e : (cartProgram m n (cands.map (Rect.row n)) er records c gamma reg).nRect = cands.length := hl
    rw [e]
    exact (monotone2D_congr fun i hi => cart_connY hc hi).2 h1
  · simpa only [dominating2D, Prog2D.totalRecords, cartProgram, program2D, hl] using h.dominating

end

theorem select_map' {γ δ : Type*} (f : γ → δ) : ∀ (l : List γ) (k : List Bool), select (l.map f) k = (select l k).map f
  | [], _ => by simp
  | _ :: _, [] => by simp
  | a :: l, b :: k => by cases b <;> simp [select_map' f l k]

theorem pMatrixRows_eq (init : ℕ → ℕ) (sel : List Rect) (n : ℕ) :
    pMatrixRows init (sel.map (Rect.row n)) = pMatrix n init sel := by
  funext p
  rw [pMatrixRows, pMatrix, List.zipIdx_map, List.foldl_map]
  rfl

/-- Two lists of rectangles, both in the order of the loops, with the same tiling are equal. -/
theorem tiling_order {l l' : List Rect} (h : Covers m n l) (h' : Covers m n l') (hs : l.Pairwise CornerLE)
    (hs' : l'.Pairwise CornerLE) (e : (l.map Rect.block).toFinset = (l'.map Rect.block).toFinset) : l = l' := by
  have hmem : ∀ t, t ∈ l ↔ t ∈ l' := by
    intro t
    have := Finset.ext_iff.1 e t.block
    simpa only [List.mem_toFinset, List.mem_map, Rect.block_injective.eq_iff, exists_eq_right] using this
  refine List.Perm.eq_of_pairwise ?_ hs hs' ((List.perm_ext_iff_of_nodup h.nodup h'.nodup).2 hmem)
  intro a b ha hb h1 h2
  have hb' := (hmem b).2 hb
  have ra := mem_allRects.1 (h.rects a ha)
  have rb := mem_allRects.1 (h.rects b hb')
  have hij : a.i = b.i ∧ a.j = b.j := by unfold CornerLE at h1 h2; omega
  obtain ⟨i, hi, _, hun⟩ := h.exists_unique (r := a.i) (c := a.j) (by omega) (by omega)
  obtain ⟨x, hx, rfl⟩ := List.getElem_of_mem ha
  obtain ⟨y, hy, rfl⟩ := List.getElem_of_mem hb'
  have e1 := hun x hx (by simp only [Block.Mem, Rect.block]; omega)
  have e2 := hun y hy (by simp only [Block.Mem, Rect.block]; omega)
  subst e1; subst e2; rfl

end OptBinning
