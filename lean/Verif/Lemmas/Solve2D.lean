import Mathlib.Data.Fintype.Card
import Mathlib.Data.Fintype.BigOperators
import Mathlib.Algebra.BigOperators.Fin
import Mathlib.Algebra.Order.BigOperators.Group.Finset
import Mathlib.Tactic.Positivity
import Verif.Lemmas.Grid2D

/-!
# The solutions of the programs of `cp_2d.py`, `mip_2d.py` are exactly the admissible tilings
-/
namespace OptBinning

open Spec

set_option linter.unusedSectionVars false

theorem sum_zero_one {ι : Type*} [DecidableEq ι] (S : Finset ι) (x : ι → ℤ) (h : ∀ i ∈ S, x i = 0 ∨ x i = 1) :
    ∑ i ∈ S, x i = ((S.filter fun i => x i = 1).card : ℤ) := by
  rw [Finset.card_filter]
  push_cast
  refine Finset.sum_congr rfl fun i hi => ?_
  rcases h i hi with h0 | h0 <;> simp [h0]

/-- The blocks chosen by an assignment. -/
def chosen (cands : List Rect) (x : ℕ → ℤ) : Finset Block :=
  (Finset.univ.filter fun i : Fin cands.length => x i = 1).image fun i => cands[i].block

theorem mem_chosen {cands : List Rect} {x : ℕ → ℤ} {b : Block} :
    b ∈ chosen cands x ↔ ∃ i, ∃ h : i < cands.length, x i = 1 ∧ cands[i].block = b := by
  simp only [chosen, Finset.mem_image, Finset.mem_filter, Finset.mem_univ, true_and]
  constructor
  · rintro ⟨i, h1, h2⟩
    exact ⟨i, i.2, h1, h2⟩
  · rintro ⟨i, h, h1, h2⟩
    exact ⟨⟨i, h⟩, h1, h2⟩

section
variable {m n : ℕ} {cands : List Rect} {x : ℕ → ℤ}

theorem block_getElem_inj (hn : cands.Nodup) {i j : ℕ} (hi : i < cands.length) (hj : j < cands.length)
    (h : cands[i].block = cands[j].block) : i = j := by
  have := Rect.block_injective h
  exact (List.Nodup.getElem_inj_iff hn).1 this

theorem card_chosen (hn : cands.Nodup) (hx : ∀ i < cands.length, x i = 0 ∨ x i = 1) :
    ((chosen cands x).card : ℤ) = ((List.range cands.length).map x).sum := by
  rw [sum_range_list, Finset.sum_range, sum_zero_one (ι := Fin cands.length) _ (fun i => x i) (fun i _ => hx i i.2), chosen,
    Finset.card_image_of_injective]
  intro i j h
  exact Fin.ext (block_getElem_inj hn i.2 j.2 h)

theorem cols_sum_iff (hc : ∀ t ∈ cands, t ∈ allRects m n) (hn : cands.Nodup)
    (hx : ∀ i < cands.length, x i = 0 ∨ x i = 1) {r c : ℕ} (hcn : c < n) :
    ((colsOf (cands.map (Rect.row n)) (r * n + c)).map x).sum = 1 ↔ ∃! b, b ∈ chosen cands x ∧ b.Mem r c := by
  have hnd : (colsOf (cands.map (Rect.row n)) (r * n + c)).Nodup := List.nodup_range.filter _
  rw [← List.sum_toFinset _ hnd, sum_zero_one]
  swap
  · intro i hi
    rw [List.mem_toFinset, mem_colsOf] at hi
    exact hx i (by simpa using hi.1)
  have hmem : ∀ i, i ∈ (colsOf (cands.map (Rect.row n)) (r * n + c)).toFinset ↔
      ∃ h : i < cands.length, cands[i].block.Mem r c := by
    intro i
    rw [List.mem_toFinset, mem_colsOf]
    simp only [List.length_map, List.getElem_map]
    refine exists_congr fun h => ?_
    exact mem_row_cell (mem_allRects.1 (hc _ (List.getElem_mem h))).2.2.2 hcn
  norm_cast
  rw [Finset.card_eq_one]
  constructor
  · rintro ⟨i, hi⟩
    have h1 : i ∈ Finset.filter (fun i => x i = 1) (colsOf (cands.map (Rect.row n)) (r * n + c)).toFinset := by
      rw [hi]; exact Finset.mem_singleton_self i
    rw [Finset.mem_filter, hmem] at h1
    obtain ⟨⟨hl, hm⟩, hx1⟩ := h1
    refine ⟨cands[i].block, ⟨mem_chosen.2 ⟨i, hl, hx1, rfl⟩, hm⟩, ?_⟩
    rintro b ⟨hb, hbm⟩
    obtain ⟨j, hj, hxj, rfl⟩ := mem_chosen.1 hb
    have : j ∈ Finset.filter (fun i => x i = 1) (colsOf (cands.map (Rect.row n)) (r * n + c)).toFinset := by
      rw [Finset.mem_filter, hmem]; exact ⟨⟨hj, hbm⟩, hxj⟩
    rw [hi, Finset.mem_singleton] at this
    subst this
    rfl
  · rintro ⟨b, ⟨hb, hbm⟩, hu⟩
    obtain ⟨i, hi, hxi, rfl⟩ := mem_chosen.1 hb
    refine ⟨i, ?_⟩
    ext j
    rw [Finset.mem_filter, hmem, Finset.mem_singleton]
    constructor
    · rintro ⟨⟨hj, hjm⟩, hxj⟩
      exact block_getElem_inj hn hj hi (hu _ ⟨mem_chosen.2 ⟨j, hj, hxj, rfl⟩, hjm⟩)
    · rintro rfl
      exact ⟨⟨hi, hbm⟩, hxi⟩

theorem monotone2D_iff {t : Option Trend2D} {minDiff : ℚ} {er : ℕ → ℚ} {conn : ℕ → List ℕ}
    (hx : ∀ i < cands.length, x i = 0 ∨ x i = 1) (hconn : ∀ i < cands.length, ∀ j ∈ conn i, j < cands.length) :
    monotone2D t minDiff er cands.length conn x ↔
      ∀ i < cands.length, ∀ j ∈ conn i, x i = 1 → x j = 1 → StepOK t minDiff (er i) (er j) := by
  cases t with
  | none => simp [monotone2D, StepOK]
  | some t =>
    simp only [monotone2D]
    refine forall_congr' fun i => forall_congr' fun hi => ?_
    have hf : ∀ j ∈ conn i, (j ∈ forbidden t minDiff er i (conn i) ↔ ¬ StepOK (some t) minDiff (er i) (er j)) := by
      intro j hj
      simp only [forbidden, List.mem_filter, hj, true_and]
      cases t <;> simp [StepOK]
    have hsub : ∀ j ∈ forbidden t minDiff er i (conn i), j ∈ conn i := fun j hj => (List.mem_filter.1 hj).1
    generalize forbidden t minDiff er i (conn i) = ind at hf hsub
    have hnn : ∀ l : List ℕ, (∀ j ∈ l, j ∈ conn i) → 0 ≤ (l.map x).sum ∧ (l.map x).sum ≤ l.length ∧
        ((l.map x).sum = 0 → ∀ j ∈ l, x j = 0) := by
      intro l
      induction l with
      | nil => simp
      | cons a l ih =>
        intro h
        obtain ⟨h1, h2, h3⟩ := ih fun j hj => h j (List.mem_cons_of_mem _ hj)
        have ha := hx a (hconn i hi a (h a List.mem_cons_self))
        simp only [List.map_cons, List.sum_cons, List.length_cons, Nat.cast_add, Nat.cast_one, List.mem_cons,
          forall_eq_or_imp]
        refine ⟨by omega, by omega, fun h0 => ⟨by omega, h3 (by omega)⟩⟩
    obtain ⟨n1, n2, n3⟩ := hnn ind hsub
    constructor
    · intro h j hj hxi hxj
      by_contra hs
      have hjm := (hf j hj).2 hs
      have := h (List.ne_nil_of_mem hjm)
      rw [hxi] at this
      have h0 := n3 (by omega) j hjm
      omega
    · intro h _
      rcases hx i hi with h0 | h1
      · rw [h0]; simpa using n2
      · rw [h1]
        have : (ind.map x).sum = 0 := by
          have hz : ∀ j ∈ ind, x j = 0 := by
            intro j hj
            rcases hx j (hconn i hi j (hsub j hj)) with h' | h'
            · exact h'
            · exact absurd (h j (hsub j hj) h1 h') ((hf j (hsub j hj)).1 hj)
          rw [List.map_congr_left hz]
          simp
        rw [this]; simp

theorem conn_lt {pairs : List (ℕ × ℕ)} {outer : ℕ → List ℕ} {i : ℕ} {j : ℕ}
    (h : j ∈ connectedTo pairs (cands.map (Rect.row n)) (outer i) i) : j < cands.length := by
  have := (List.mem_filter.1 h).1
  simpa using this

variable {R : Type*} [CommRing R] [LinearOrder R] [IsStrictOrderedRing R]
  {er : ℕ → ℚ} {records : ℕ → ℕ} {c : ℕ → R} {gamma : Bool} {reg : R} {o : Opts2D}

/-- The bins constraint with its slack variable. -/
theorem bins_of_feasible {a : Assign2D R} (h : Feasible2D o (program2D m n cands er records c gamma reg) a) :
    Within o.minBins o.maxBins ((List.range cands.length).map a.x).sum := by
  have h1 := h.bins
  have h2 := h.dom.2.1
  simp only [minMaxBins2D, program2D] at h1
  generalize ((List.range cands.length).map a.x).sum = s at *
  cases hlo : o.minBins <;> cases hhi : o.maxBins <;> simp only [hlo, hhi] at h1
  · simp [Within]
  · simp [Within, h1]
  · simpa [Within] using h1
  · rename_i lo hi
    have := h2 lo hi hlo hhi
    have e : a.d = ((hi - s : ℤ) : R) := by push_cast; linear_combination h1
    rw [e] at this
    have h3 : (0 : ℤ) ≤ hi - s := by exact_mod_cast this.1
    have h4 : hi - s ≤ hi - lo := by exact_mod_cast this.2
    constructor <;> intro b hb <;> simp at hb <;> omega

/-- Every solution of the program is an admissible tiling. -/
theorem chosen_sound (hc : ∀ t ∈ cands, t ∈ allRects m n) (hn : cands.Nodup) {rate : Block → ℚ}
    (her : ∀ i (h : i < cands.length), er i = rate cands[i].block) {a : Assign2D R}
    (h : Feasible2D o (program2D m n cands er records c gamma reg) a) :
    IsTiling m n (chosen cands a.x) ∧ Within o.minBins o.maxBins ((chosen cands a.x).card : ℤ) ∧
      TrendsHold o (chosen cands a.x) rate := by
  have hx := h.dom.1
  refine ⟨⟨?_, ?_⟩, ?_, ?_, ?_⟩
  · intro b hb
    obtain ⟨i, hi, _, rfl⟩ := mem_chosen.1 hb
    exact allRects_inside (hc _ (List.getElem_mem hi))
  · intro r hr cc hcc
    refine (cols_sum_iff hc hn hx hcc).1 (h.unique (r * n + cc) ?_)
    show r * n + cc < m * n
    calc r * n + cc < r * n + n := by omega
      _ = (r + 1) * n := by ring
      _ ≤ m * n := Nat.mul_le_mul_right _ hr
  · rw [card_chosen hn hx]
    exact bins_of_feasible h
  · intro p hp q hq hpq
    obtain ⟨i, hi, hxi, rfl⟩ := mem_chosen.1 hp
    obtain ⟨j, hj, hxj, rfl⟩ := mem_chosen.1 hq
    have := (monotone2D_iff hx (fun i _ j hj => conn_lt (outer := fun i => (cands.map (Rect.outerX n)).getD i []) hj)).1 h.monoX
      i hi j ((mem_connX hc hi hj).2 hpq) hxi hxj
    simpa [program2D, her i hi, her j hj] using this
  · intro p hp q hq hpq
    obtain ⟨i, hi, hxi, rfl⟩ := mem_chosen.1 hp
    obtain ⟨j, hj, hxj, rfl⟩ := mem_chosen.1 hq
    have := (monotone2D_iff hx (fun i _ j hj => conn_lt (outer := fun i => (cands.map (Rect.outerY n)).getD i []) hj)).1 h.monoY
      i hi j ((mem_connY hc hi hj).2 hpq) hxi hxj
    simpa [program2D, her i hi, her j hj] using this

/-- The indicator of the candidates in `T`. -/
noncomputable def indicator2D (cands : List Rect) (T : Finset Block) (i : ℕ) : ℤ :=
  if ∃ h : i < cands.length, cands[i].block ∈ T then 1 else 0

theorem indicator2D_zero_one (T : Finset Block) (i : ℕ) : indicator2D cands T i = 0 ∨ indicator2D cands T i = 1 := by
  unfold indicator2D
  split <;> simp

theorem chosen_indicator {T : Finset Block} (hT : ∀ b ∈ T, ∃ t ∈ cands, t.block = b) :
    chosen cands (indicator2D cands T) = T := by
  ext b
  rw [mem_chosen]
  constructor
  · rintro ⟨i, hi, h1, rfl⟩
    unfold indicator2D at h1
    split at h1
    · rename_i h; exact h.2
    · omega
  · intro hb
    obtain ⟨t, ht, rfl⟩ := hT b hb
    obtain ⟨i, hi, rfl⟩ := List.getElem_of_mem ht
    exact ⟨i, hi, by simp [indicator2D, hi, hb], rfl⟩

theorem records_le_total (p : Prog2D R) {i : ℕ} (hi : i < p.nRect) : p.records i ≤ p.totalRecords := by
  rw [Prog2D.totalRecords, sum_range_list]
  exact Finset.single_le_sum (f := p.records) (fun _ _ => Nat.zero_le _) (Finset.mem_range.2 hi)

/-- Every admissible tiling by candidates is a solution of the program; `pmax` and `pmin` may be the sizes of the largest
and the smallest bin. -/
theorem chosen_complete (hc : ∀ t ∈ cands, t ∈ allRects m n) (hn : cands.Nodup) {rate : Block → ℚ}
    (her : ∀ i (h : i < cands.length), er i = rate cands[i].block) {size : Block → ℕ}
    (hsz : ∀ i (h : i < cands.length), records i = size cands[i].block) {T : Finset Block}
    (hT : ∀ b ∈ T, ∃ t ∈ cands, t.block = b) (ht : IsTiling m n T)
    (hb : Within o.minBins o.maxBins (T.card : ℤ)) (htr : TrendsHold o T rate) {s : ℕ} (hs : IsSpread size T s) :
    ∃ a : Assign2D R, Feasible2D o (program2D m n cands er records c gamma reg) a ∧ chosen cands a.x = T ∧
      a.pmax - a.pmin = (s : R) := by
  obtain ⟨big, hbig, small, hsmall, hall, hs⟩ := hs
  have hx : ∀ i < cands.length, indicator2D cands T i = 0 ∨ indicator2D cands T i = 1 :=
    fun i _ => indicator2D_zero_one T i
  have hch := chosen_indicator hT
  have hsum : ((List.range cands.length).map (indicator2D cands T)).sum = (T.card : ℤ) := by
    rw [← card_chosen hn hx, hch]
  have one_iff : ∀ i (h : i < cands.length), indicator2D cands T i = 1 → cands[i].block ∈ T := by
    intro i h h1
    have : cands[i].block ∈ chosen cands (indicator2D cands T) := mem_chosen.2 ⟨i, h, h1, rfl⟩
    rwa [hch] at this
  have hle : ∀ b ∈ T, size b ≤ (program2D m n cands er records c gamma reg).totalRecords := by
    intro b hb
    obtain ⟨t, ht, rfl⟩ := hT b hb
    obtain ⟨i, hi, rfl⟩ := List.getElem_of_mem ht
    rw [← hsz i hi]
    exact records_le_total (program2D m n cands er records c gamma reg) hi
  refine ⟨⟨indicator2D cands T, ((o.maxBins.getD 0 - T.card : ℤ) : R), (size big : R), (size small : R)⟩, ⟨⟨hx, ?_, ?_⟩, ?_, ?_, ?_, ?_, ?_⟩, hch, ?_⟩
  · intro lo hi hlo hhi
    have h1 := hb.1 lo hlo
    have h2 := hb.2 hi hhi
    rw [hhi]
    simp only [Option.getD_some]
    constructor
    · exact_mod_cast (by omega : (0 : ℤ) ≤ hi - T.card)
    · exact_mod_cast (by omega : hi - (T.card : ℤ) ≤ hi - lo)
  · intro _
    refine ⟨by positivity, ?_, by positivity, ?_⟩
    · show ((size big : ℕ) : R) ≤ _
      exact_mod_cast hle big hbig
    · show ((size small : ℕ) : R) ≤ _
      exact_mod_cast hle small hsmall
  · intro p hp
    have hnpos : 0 < n := by
      rcases Nat.eq_zero_or_pos n with h0 | h0
      · simp [program2D, h0] at hp
      · exact h0
    have e : p = (p / n) * n + p % n := by rw [Nat.mul_comm]; exact (Nat.div_add_mod p n).symm
    have hr : p / n < m := by
      rw [Nat.div_lt_iff_lt_mul hnpos]; exact hp
    rw [e]
    refine (cols_sum_iff hc hn hx (Nat.mod_lt _ hnpos)).2 ?_
    rw [hch]
    exact ht.2 _ hr _ (Nat.mod_lt _ hnpos)
  · simp only [minMaxBins2D, program2D, hsum]
    cases hlo : o.minBins <;> cases hhi : o.maxBins
    · trivial
    · simpa using hb.2 _ hhi
    · simpa using hb.1 _ hlo
    · simp
  · refine (monotone2D_iff hx (fun i _ j hj => conn_lt (outer := fun i => (cands.map (Rect.outerX n)).getD i []) hj)).2 ?_
    intro i hi j hj hxi hxj
    have hjl : j < cands.length := conn_lt (outer := fun i => (cands.map (Rect.outerX n)).getD i []) hj
    have := htr.1 _ (one_iff i hi hxi) _ (one_iff j hjl hxj) ((mem_connX hc hi hjl).1 hj)
    simpa [program2D, her i hi, her j hjl] using this
  · refine (monotone2D_iff hx (fun i _ j hj => conn_lt (outer := fun i => (cands.map (Rect.outerY n)).getD i []) hj)).2 ?_
    intro i hi j hj hxi hxj
    have hjl : j < cands.length := conn_lt (outer := fun i => (cands.map (Rect.outerY n)).getD i []) hj
    have := htr.2 _ (one_iff i hi hxi) _ (one_iff j hjl hxj) ((mem_connY hc hi hjl).1 hj)
    simpa [program2D, her i hi, her j hjl] using this
  · intro _
    refine ⟨fun i hi => ?_, ?_⟩
    · have hi' : i < cands.length := hi
      rcases hx i hi' with h0 | h1
      · simp only [h0]
        refine ⟨?_, ?_⟩
        · simpa using (by exact_mod_cast hle small hsmall : ((size small : ℕ) : R) ≤ ((program2D m n cands er records c gamma reg).totalRecords : R))
        · simp
      · have hm := one_iff i hi' h1
        simp only [h1]
        have e : (program2D m n cands er records c gamma reg).records i = size cands[i].block := hsz i hi'
        rw [e]
        have := hall _ hm
        refine ⟨?_, ?_⟩
        · simpa using (by exact_mod_cast this.1 : ((size small : ℕ) : R) ≤ (size cands[i].block : R))
        · simpa using (by exact_mod_cast this.2 : ((size cands[i].block : ℕ) : R) ≤ (size big : R))
    · have := (hall small hsmall).2
      show ((size small : ℕ) : R) ≤ ((size big : ℕ) : R)
      exact_mod_cast this
  · simp only
    rw [← hs]
    push_cast
    ring

/-- In every solution with `gamma`, `pmax - pmin` is at least the difference of the sizes of any two chosen bins. -/
theorem spread_le {size : Block → ℕ}
    (hsize : ∀ i (h : i < cands.length), records i = size cands[i].block) {a : Assign2D R}
    (h : Feasible2D o (program2D m n cands er records c true reg) a) {s : ℕ} (hs : IsSpread size (chosen cands a.x) s) :
    (s : R) ≤ a.pmax - a.pmin := by
  obtain ⟨big, hbig, small, hsmall, hall, hs⟩ := hs
  obtain ⟨i, hi, hxi, rfl⟩ := mem_chosen.1 hbig
  obtain ⟨j, hj, hxj, rfl⟩ := mem_chosen.1 hsmall
  have hd := h.dominating rfl
  have h1 := (hd.1 i hi).2
  have h2 := (hd.1 j hj).1
  rw [hxi] at h1
  rw [hxj] at h2
  have e1 : (program2D m n cands er records c true reg).records i = size cands[i].block := hsize i hi
  have e2 : (program2D m n cands er records c true reg).records j = size cands[j].block := hsize j hj
  rw [e1] at h1
  rw [e2] at h2
  simp only [Int.cast_one, sub_self, mul_zero, zero_add, mul_one] at h1 h2
  have h3 : ((size cands[j].block : ℕ) : R) + (s : R) = (size cands[i].block : R) := by exact_mod_cast hs
  linarith

theorem exists_spread (size : Block → ℕ) {T : Finset Block} (h : T.Nonempty) : ∃ s, IsSpread size T s := by
  obtain ⟨a, ha, h1⟩ := Finset.exists_max_image T size h
  obtain ⟨b, hb, h2⟩ := Finset.exists_min_image T size h
  exact ⟨size a - size b, a, ha, b, hb, fun t ht => ⟨h2 t ht, h1 t ht⟩, by have := h1 b hb; omega⟩

theorem tiling_nonempty {T : Finset Block} (hm : 0 < m) (hn : 0 < n) (h : IsTiling m n T) : T.Nonempty := by
  obtain ⟨b, hb, _⟩ := h.2 0 hm 0 hn
  exact ⟨b, hb.1⟩

/-- The first part of the objective is the sum over the chosen bins. -/
theorem sum_chosen (hn : cands.Nodup) {value : Block → R} (hcv : ∀ i (h : i < cands.length), c i = value cands[i].block)
    (hx : ∀ i < cands.length, x i = 0 ∨ x i = 1) :
    ((List.range cands.length).map fun i => c i * (x i : R)).sum = ∑ b ∈ chosen cands x, value b := by
  rw [sum_range_list, Finset.sum_range, chosen, Finset.sum_image, Finset.sum_filter]
  · refine Finset.sum_congr rfl fun i _ => ?_
    rcases hx i i.2 with h | h
    · simp [h]
    · rw [hcv i i.2]
      simp [h]
  · intro i _ j _ h
    exact Fin.ext (block_getElem_inj hn i.2 j.2 h)

end
end OptBinning
