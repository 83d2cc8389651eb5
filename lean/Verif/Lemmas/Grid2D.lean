import Mathlib.Tactic.Ring
import Mathlib.Tactic.Linarith
import Mathlib.Algebra.BigOperators.Group.Finset.Basic
import Mathlib.Data.List.GetD
import Mathlib.Data.List.Nodup
import Mathlib.Data.List.Range
import Verif.Model.Grid2D

/-!
# Lemmas about rectangles of grid cells and the programs of `cp_2d.py`, `mip_2d.py`
-/
namespace OptBinning

open Spec

/-- The block of cells of a rectangle. -/
def Rect.block (t : Rect) : Block := ⟨t.i, t.i + t.k, t.j, t.j + t.l⟩

theorem Rect.block_injective : Function.Injective Rect.block := by
  rintro ⟨i, j, k, l⟩ ⟨i', j', k', l'⟩ h
  simp only [Rect.block, Block.mk.injEq] at h
  obtain ⟨h1, h2, h3, h4⟩ := h
  subst h1 h3
  simp only [Rect.mk.injEq, true_and]
  omega

theorem sum_range_list {S : Type*} [AddCommMonoid S] (k : ℕ) (f : ℕ → S) :
    ((List.range k).map f).sum = ∑ a ∈ Finset.range k, f a := by
  induction k with
  | zero => simp
  | succ k ih => simp [List.range_succ, Finset.sum_range_succ, ih]

theorem cell_div {n i j a b : ℕ} (h : j + b < n) : (i * n + j + (n * a + b)) / n = i + a := by
  have hn : 0 < n := by omega
  have e : i * n + j + (n * a + b) = (j + b) + n * (i + a) := by ring
  rw [e, Nat.add_mul_div_left _ _ hn, Nat.div_eq_of_lt h]; omega

theorem cell_mod {n i j a b : ℕ} (h : j + b < n) : (i * n + j + (n * a + b)) % n = j + b := by
  have e : i * n + j + (n * a + b) = (j + b) + n * (i + a) := by ring
  rw [e, Nat.add_mul_mod_self_left, Nat.mod_eq_of_lt h]

/-- The cells of a rectangle are the cells of its block. -/
theorem mem_row {n : ℕ} {t : Rect} (h : t.j + t.l ≤ n) (p : ℕ) :
    p ∈ t.row n ↔ t.block.Mem (p / n) (p % n) := by
  simp only [Rect.row, cachedRectangle, List.mem_map, List.mem_flatMap, List.mem_range, Rect.block, Block.Mem]
  constructor
  · rintro ⟨r, ⟨a, ha, b, hb, rfl⟩, rfl⟩
    rw [cell_div (by omega), cell_mod (by omega)]
    omega
  · rintro ⟨h1, h2, h3, h4⟩
    refine ⟨n * (p / n - t.i) + (p % n - t.j), ⟨p / n - t.i, by omega, p % n - t.j, by omega, rfl⟩, ?_⟩
    have e := Nat.div_add_mod p n
    have e2 : n * (p / n - t.i) + t.i * n = n * (p / n) := by
      rw [Nat.mul_comm t.i n, ← Nat.mul_add]
      congr 1
      omega
    omega

theorem mem_row_cell {n : ℕ} {t : Rect} (h : t.j + t.l ≤ n) {r c : ℕ} (hc : c < n) :
    r * n + c ∈ t.row n ↔ t.block.Mem r c := by
  have e : r * n + c = r * n + 0 + (n * 0 + c) := by ring
  rw [mem_row h, e, cell_div (by omega), cell_mod (by omega)]
  simp

/-- `fe[row].sum()` is the total over the block. -/
theorem sum_row {S : Type*} [AddCommMonoid S] {n : ℕ} {t : Rect} (h : t.j + t.l ≤ n) (M : ℕ → ℕ → S) :
    ((t.row n).map (ravel n M)).sum = t.block.total M := by
  simp only [Rect.row, cachedRectangle, List.map_map, List.map_flatMap, Block.total, Rect.block]
  rw [Finset.sum_Ico_eq_sum_range]
  simp only [Finset.sum_Ico_eq_sum_range, Nat.add_sub_cancel_left]
  rw [List.flatMap_def, List.sum_flatten, List.map_map, ← sum_range_list]
  congr 1
  refine List.map_congr_left fun a _ => ?_
  simp only [Function.comp]
  rw [← sum_range_list]
  congr 1
  refine List.map_congr_left fun b hb => ?_
  rw [List.mem_range] at hb
  simp only [Function.comp, ravel]
  rw [cell_div (by omega), cell_mod (by omega)]

theorem mem_allRects {m n : ℕ} {t : Rect} :
    t ∈ allRects m n ↔ 1 ≤ t.k ∧ t.i + t.k ≤ m ∧ 1 ≤ t.l ∧ t.j + t.l ≤ n := by
  obtain ⟨i, j, k, l⟩ := t
  simp only [allRects, List.mem_flatMap, List.mem_map, List.mem_range, Rect.mk.injEq]
  constructor
  · rintro ⟨i', hi, j', hj, k', hk, l', hl, rfl, rfl, rfl, rfl⟩
    omega
  · rintro ⟨h1, h2, h3, h4⟩
    exact ⟨i, by omega, j, by omega, k - 1, by omega, l - 1, by omega, rfl, rfl, by omega, by omega⟩

/-- The candidates are inside the grid. -/
theorem allRects_inside {m n : ℕ} {t : Rect} (h : t ∈ allRects m n) : t.block.Inside m n := by
  have := mem_allRects.1 h
  simp only [Block.Inside, Rect.block]
  omega

/-- Every non-empty block inside the grid is enumerated. -/
theorem exists_rect {m n : ℕ} {b : Block} (h : b.Inside m n) : ∃ t ∈ allRects m n, t.block = b := by
  obtain ⟨h1, h2, h3, h4⟩ := h
  refine ⟨⟨b.top, b.left, b.bottom - b.top, b.right - b.left⟩, mem_allRects.2 ?_, ?_⟩
  · simp only
    omega
  · cases b
    simp only [Rect.block, Block.mk.injEq, true_and] at *
    omega

theorem nodup_flatMap_of {α β : Type*} {l : List α} {f : α → List β} {g : β → α} (hl : l.Nodup)
    (hf : ∀ a ∈ l, (f a).Nodup) (hg : ∀ a ∈ l, ∀ b ∈ f a, g b = a) : (l.flatMap f).Nodup := by
  rw [List.nodup_flatMap]
  refine ⟨hf, ?_⟩
  refine List.Pairwise.imp_of_mem ?_ hl
  intro a b ha hb hne c hc1 hc2
  exact hne ((hg a ha c hc1).symm.trans (hg b hb c hc2))

theorem nodup_allRects (m n : ℕ) : (allRects m n).Nodup := by
  refine nodup_flatMap_of (g := Rect.i) List.nodup_range (fun i _ => ?_) ?_
  · refine nodup_flatMap_of (g := Rect.j) List.nodup_range (fun j _ => ?_) ?_
    · refine nodup_flatMap_of (g := fun t => t.k - 1) List.nodup_range (fun k _ => ?_) ?_
      · exact List.nodup_range.map fun a b h => by simpa using h
      · intro a _ b hb
        simp only [List.mem_map] at hb
        obtain ⟨_, _, rfl⟩ := hb
        rfl
    · intro a _ b hb
      simp only [List.mem_flatMap, List.mem_map] at hb
      obtain ⟨_, _, _, _, rfl⟩ := hb
      rfl
  · intro a _ b hb
    simp only [List.mem_flatMap, List.mem_map] at hb
    obtain ⟨_, _, _, _, _, _, rfl⟩ := hb
    rfl

theorem getD_grid (f : ℕ → ℕ → ℕ) (k l a b : ℕ) (ha : a < k) (hb : b < l) (z : ℕ) :
    ((List.range k).flatMap fun x => (List.range l).map (f x)).getD (a * l + b) z = f a b := by
  have hlen : ∀ k, ((List.range k).flatMap fun x => (List.range l).map (f x)).length = k * l := by
    intro k
    induction k with
    | zero => simp
    | succ k ih => rw [List.range_succ, List.flatMap_append, List.length_append, ih]; simp [Nat.succ_mul]
  induction k with
  | zero => omega
  | succ k ih =>
    rw [List.range_succ, List.flatMap_append]
    by_cases h : a < k
    · rw [List.getD_append _ _ _ _ ?_]
      · exact ih h
      · rw [hlen]
        calc a * l + b < a * l + l := by omega
          _ = (a + 1) * l := by ring
          _ ≤ k * l := Nat.mul_le_mul_right _ h
    · have : a = k := by omega
      subst this
      rw [List.getD_append_right _ _ _ _ (by rw [hlen]; omega), hlen]
      simp [hb]

theorem mem_outerX {n : ℕ} {t : Rect} (hl : 1 ≤ t.l) (p : ℕ) :
    p ∈ t.outerX n ↔ ∃ a < t.k, p = (t.i + a) * n + (t.j + t.l - 1) := by
  simp only [Rect.outerX, List.mem_map, List.mem_range]
  refine exists_congr fun a => and_congr_right fun ha => ?_
  have : (t.row n).getD (a * t.l + (t.l - 1)) 0 = t.i * n + t.j + (n * a + (t.l - 1)) := by
    have e : t.row n = (List.range t.k).flatMap fun x => (List.range t.l).map fun y => t.i * n + t.j + (n * x + y) := by
      simp [Rect.row, cachedRectangle, List.map_flatMap, Function.comp_def]
    rw [e]
    exact getD_grid (fun x y => t.i * n + t.j + (n * x + y)) t.k t.l a (t.l - 1) ha (by omega) 0
  rw [this]
  have : (t.i + a) * n + (t.j + t.l - 1) = t.i * n + t.j + (n * a + (t.l - 1)) := by
    have : (t.i + a) * n = t.i * n + n * a := by ring
    omega
  rw [this, eq_comm]

theorem mem_outerY {n : ℕ} {t : Rect} (hk : 1 ≤ t.k) (p : ℕ) :
    p ∈ t.outerY n ↔ ∃ b < t.l, p = (t.i + t.k - 1) * n + (t.j + b) := by
  simp only [Rect.outerY, List.mem_map, List.mem_range]
  refine exists_congr fun b => and_congr_right fun hb => ?_
  have : (t.row n).getD ((t.k - 1) * t.l + b) 0 = t.i * n + t.j + (n * (t.k - 1) + b) := by
    have e : t.row n = (List.range t.k).flatMap fun x => (List.range t.l).map fun y => t.i * n + t.j + (n * x + y) := by
      simp [Rect.row, cachedRectangle, List.map_flatMap, Function.comp_def]
    rw [e]
    exact getD_grid (fun x y => t.i * n + t.j + (n * x + y)) t.k t.l (t.k - 1) b (by omega) hb 0
  rw [this]
  have : (t.i + t.k - 1) * n + (t.j + b) = t.i * n + t.j + (n * (t.k - 1) + b) := by
    have : t.i + t.k - 1 = t.i + (t.k - 1) := by omega
    rw [this]
    ring
  rw [this, eq_comm]

theorem mem_pairsX {m n p q : ℕ} : (p, q) ∈ pairsX m n ↔ ∃ r < m, ∃ c, c + 1 < n ∧ p = r * n + c ∧ q = r * n + (c + 1) := by
  simp only [pairsX, List.mem_flatMap, List.mem_map, List.mem_range, Prod.mk.injEq]
  refine exists_congr fun r => and_congr_right fun hr => ?_
  constructor
  · rintro ⟨c, hc, rfl, rfl⟩
    exact ⟨c, by omega, by ring, by ring⟩
  · rintro ⟨c, hc, rfl, rfl⟩
    exact ⟨c, by omega, by ring, by ring⟩

theorem mem_pairsY {m n p q : ℕ} : (p, q) ∈ pairsY m n ↔ ∃ r, r + 1 < m ∧ ∃ c < n, p = r * n + c ∧ q = (r + 1) * n + c := by
  simp only [pairsY, List.mem_flatMap, List.mem_map, List.mem_range, Prod.mk.injEq]
  constructor
  · rintro ⟨r, hr, c, hc, rfl, rfl⟩
    exact ⟨r, by omega, c, hc, by ring, by ring⟩
  · rintro ⟨r, hr, c, hc, rfl, rfl⟩
    exact ⟨r, by omega, c, hc, by ring, by ring⟩

theorem cell_inj {n r c r' c' : ℕ} (hc : c < n) (hc' : c' < n) (h : r * n + c = r' * n + c') : r = r' ∧ c = c' := by
  have hn : 0 < n := by omega
  have h1 : (r * n + c) / n = r := by
    rw [Nat.mul_comm, Nat.mul_add_div hn, Nat.div_eq_of_lt hc, Nat.add_zero]
  have h2 : (r' * n + c') / n = r' := by
    rw [Nat.mul_comm, Nat.mul_add_div hn, Nat.div_eq_of_lt hc', Nat.add_zero]
  rw [h] at h1
  have : r = r' := by omega
  subst this
  exact ⟨rfl, by omega⟩

section Conn
variable {m n : ℕ} {cands : List Rect}

theorem mem_colsOf {rows : List (List ℕ)} {p i : ℕ} : i ∈ colsOf rows p ↔ ∃ h : i < rows.length, p ∈ rows[i] := by
  simp only [colsOf, List.mem_filter, List.mem_range, List.contains_iff_mem]
  constructor
  · rintro ⟨h1, h2⟩
    exact ⟨h1, by rwa [List.getD_eq_getElem _ _ h1] at h2⟩
  · rintro ⟨h1, h2⟩
    exact ⟨h1, by rwa [List.getD_eq_getElem _ _ h1]⟩

/-- Two blocks have no common cell. -/
def Apart (a b : Block) : Prop := ∀ r c, ¬ (a.Mem r c ∧ b.Mem r c)

theorem mem_connectedTo {pairs : List (ℕ × ℕ)} {rows : List (List ℕ)} {outer : List ℕ} {i j : ℕ} (hi : i < rows.length) :
    j ∈ connectedTo pairs rows outer i ↔ ∃ h : j < rows.length,
      (∃ p q, p ∈ outer ∧ (p, q) ∈ pairs ∧ q ∈ rows[j]) ∧ ¬ ∃ p ∈ rows[i], p ∈ rows[j] := by
  have e : rows.getD i [] = rows[i] := List.getD_eq_getElem _ _ hi
  simp only [connectedTo, List.mem_filter, List.mem_range, Bool.and_eq_true, List.any_eq_true, List.contains_iff_mem,
    Bool.not_eq_true', beq_iff_eq, mem_colsOf, e]
  rw [← Bool.not_eq_true]
  simp only [List.any_eq_true, List.contains_iff_mem, mem_colsOf]
  constructor
  · rintro ⟨h, ⟨r, hr, q, hq, rfl, h', hm⟩, hn⟩
    exact ⟨h, ⟨q.1, q.2, hr, hq, hm⟩, fun ⟨p, hp, hp'⟩ => hn ⟨p, hp, h, hp'⟩⟩
  · rintro ⟨h, ⟨p, q, hp, hq, hm⟩, hn⟩
    exact ⟨h, ⟨p, hp, (p, q), hq, rfl, h, hm⟩, fun ⟨p, hp, _, hp'⟩ => hn ⟨p, hp, hp'⟩⟩

theorem apart_iff {s t : Rect} (hs : s ∈ allRects m n) (ht : t ∈ allRects m n) :
    (¬ ∃ p ∈ s.row n, p ∈ t.row n) ↔ Apart s.block t.block := by
  have hs := mem_allRects.1 hs
  have ht := mem_allRects.1 ht
  constructor
  · intro h r c ⟨h1, h2⟩
    have hc : c < n := by have := h1.2.2.2; simp only [Rect.block] at this; omega
    exact h ⟨r * n + c, (mem_row_cell hs.2.2.2 hc).2 h1, (mem_row_cell ht.2.2.2 hc).2 h2⟩
  · rintro h ⟨p, h1, h2⟩
    exact h _ _ ⟨(mem_row hs.2.2.2 p).1 h1, (mem_row ht.2.2.2 p).1 h2⟩

/-- `d_connected_x`: the rectangles which begin where rectangle `i` ends, and have a common row. -/
theorem mem_connX (hc : ∀ t ∈ cands, t ∈ allRects m n) {i j : ℕ} (hi : i < cands.length) (hj : j < cands.length) :
    j ∈ connectedTo (pairsX m n) (cands.map (Rect.row n)) ((cands.map (Rect.outerX n)).getD i []) i ↔
      NextInX cands[i].block cands[j].block := by
  have ho : (cands.map (Rect.outerX n)).getD i [] = cands[i].outerX n := by
    rw [List.getD_eq_getElem _ _ (by simpa using hi)]; simp
  rw [mem_connectedTo (by simpa using hi), ho]
  have hs := hc _ (List.getElem_mem hi)
  have ht := hc _ (List.getElem_mem hj)
  have hsm := mem_allRects.1 hs
  have htm := mem_allRects.1 ht
  simp only [List.length_map, hj, exists_true_left, List.getElem_map, apart_iff hs ht, mem_outerX hsm.2.2.1]
  generalize cands[i] = s at *
  generalize cands[j] = t at *
  constructor
  · rintro ⟨⟨p, q, ⟨a, ha, rfl⟩, hpq, hq⟩, hap⟩
    obtain ⟨r, hr, c, hc1, e1, rfl⟩ := mem_pairsX.1 hpq
    obtain ⟨rfl, rfl⟩ := cell_inj (by omega) (by omega) e1
    rw [mem_row_cell htm.2.2.2 hc1] at hq
    simp only [Block.Mem, Rect.block] at hq
    refine ⟨?_, s.i + a, ?_⟩
    · simp only [Rect.block]
      by_contra hne
      refine hap (s.i + a) (s.j + s.l - 1) ⟨?_, ?_⟩ <;> simp only [Block.Mem, Rect.block] <;> omega
    · simp only [Rect.block]; omega
  · rintro ⟨h1, r, h2⟩
    simp only [Rect.block] at h1 h2
    refine ⟨⟨r * n + (s.j + s.l - 1), r * n + (s.j + s.l), ⟨r - s.i, by omega, ?_⟩, mem_pairsX.2 ⟨r, by omega, s.j + s.l - 1, by omega, rfl, ?_⟩, ?_⟩, ?_⟩
    · congr 2; omega
    · congr 1; omega
    · rw [mem_row_cell htm.2.2.2 (by omega)]
      simp only [Block.Mem, Rect.block]; omega
    · rintro r' c' ⟨ha, hb⟩
      simp only [Block.Mem, Rect.block] at ha hb
      omega

/-- `d_connected_y`. -/
theorem mem_connY (hc : ∀ t ∈ cands, t ∈ allRects m n) {i j : ℕ} (hi : i < cands.length) (hj : j < cands.length) :
    j ∈ connectedTo (pairsY m n) (cands.map (Rect.row n)) ((cands.map (Rect.outerY n)).getD i []) i ↔
      NextInY cands[i].block cands[j].block := by
  have ho : (cands.map (Rect.outerY n)).getD i [] = cands[i].outerY n := by
    rw [List.getD_eq_getElem _ _ (by simpa using hi)]; simp
  rw [mem_connectedTo (by simpa using hi), ho]
  have hs := hc _ (List.getElem_mem hi)
  have ht := hc _ (List.getElem_mem hj)
  have hsm := mem_allRects.1 hs
  have htm := mem_allRects.1 ht
  simp only [List.length_map, hj, exists_true_left, List.getElem_map, apart_iff hs ht, mem_outerY hsm.1]
  generalize cands[i] = s at *
  generalize cands[j] = t at *
  constructor
  · rintro ⟨⟨p, q, ⟨b, hb, rfl⟩, hpq, hq⟩, hap⟩
    obtain ⟨r, hr, c, hc1, e1, rfl⟩ := mem_pairsY.1 hpq
    obtain ⟨rfl, rfl⟩ := cell_inj (by omega) (by omega) e1
    rw [mem_row_cell htm.2.2.2 hc1] at hq
    simp only [Block.Mem, Rect.block] at hq
    refine ⟨?_, s.j + b, ?_⟩
    · simp only [Rect.block]
      by_contra hne
      refine hap (s.i + s.k - 1) (s.j + b) ⟨?_, ?_⟩ <;> simp only [Block.Mem, Rect.block] <;> omega
    · simp only [Rect.block]; omega
  · rintro ⟨h1, c, h2⟩
    simp only [Rect.block] at h1 h2
    refine ⟨⟨(s.i + s.k - 1) * n + c, (s.i + s.k) * n + c, ⟨c - s.j, by omega, ?_⟩, mem_pairsY.2 ⟨s.i + s.k - 1, by omega, c, by omega, rfl, ?_⟩, ?_⟩, ?_⟩
    · congr 1; omega
    · congr 2; omega
    · rw [mem_row_cell htm.2.2.2 (by omega)]
      simp only [Block.Mem, Rect.block]; omega
    · rintro r' c' ⟨ha, hb⟩
      simp only [Block.Mem, Rect.block] at ha hb
      omega

end Conn

end OptBinning
