import Verif.Lemmas.Solve2D
import Verif.Lemmas.Fit
import Verif.Model.Fit2D

/-!
# Lemmas about `fit` and `transform` in two dimensions
-/
namespace OptBinning

open Spec

set_option linter.unusedSectionVars false

/-! ### selection of the rectangles -/

theorem mem_select_iff {β : Type*} {l : List β} {m : List Bool} {a : β} :
    a ∈ select l m ↔ ∃ i : ℕ, l[i]? = some a ∧ m[i]? = some true := by
  induction l generalizing m with
  | nil => simp
  | cons b l ih =>
    cases m with
    | nil => simp
    | cons c m =>
      have : (∃ i : ℕ, (b :: l)[i]? = some a ∧ (c :: m)[i]? = some true) ↔
          (b = a ∧ c = true) ∨ ∃ i : ℕ, l[i]? = some a ∧ m[i]? = some true := by
        constructor
        · rintro ⟨i, h1, h2⟩
          cases i with
          | zero => left; simpa using And.intro h1 h2
          | succ i => right; exact ⟨i, by simpa using h1, by simpa using h2⟩
        · rintro (⟨h1, h2⟩ | ⟨i, h1, h2⟩)
          · exact ⟨0, by simp [h1], by simp [h2]⟩
          · exact ⟨i + 1, by simpa using h1, by simpa using h2⟩
      rw [this]
      cases c <;> simp [ih, eq_comm]

theorem solution_getElem? {R : Type*} [CommRing R] [LinearOrder R] {x : ℕ → ℤ} {N i : ℕ} :
    ((List.range N).map fun i => x i != 0)[i]? = some true ↔ i < N ∧ x i ≠ 0 := by
  rw [List.getElem?_map]
  by_cases h : i < N
  · simp [h]
  · simp [h]

theorem sel_toFinset {cands : List Rect} {x : ℕ → ℤ} (hx : ∀ i < cands.length, x i = 0 ∨ x i = 1) :
    ((select cands ((List.range cands.length).map fun i => x i != 0)).map Rect.block).toFinset = chosen cands x := by
  ext b
  rw [List.mem_toFinset, List.mem_map, mem_chosen]
  constructor
  · rintro ⟨t, ht, rfl⟩
    obtain ⟨i, h1, h2⟩ := mem_select_iff.1 ht
    obtain ⟨hi, hne⟩ := (solution_getElem? (R := ℤ)).1 h2
    rw [List.getElem?_eq_getElem hi, Option.some.injEq] at h1
    refine ⟨i, hi, ?_, by rw [h1]⟩
    rcases hx i hi with h | h
    · exact absurd h hne
    · exact h
  · rintro ⟨i, hi, h1, rfl⟩
    exact ⟨cands[i], mem_select_iff.2 ⟨i, List.getElem?_eq_getElem hi, (solution_getElem? (R := ℤ)).2 ⟨hi, by omega⟩⟩, rfl⟩

/-! ### loops which overwrite -/

theorem foldl_none2D {γ δ : Type*} (q : γ → Bool) (g : ℕ → δ) (l : List γ) (m : ℕ) (z : δ) (h : ∀ a ∈ l, q a = false) :
    (l.zipIdx m).foldl (fun v t => if q t.1 then g t.2 else v) z = z := by
  induction l generalizing m z with
  | nil => rfl
  | cons a l ih =>
    rw [List.zipIdx_cons, List.foldl_cons, ih _ _ fun b hb => h b (List.mem_cons_of_mem _ hb)]
    simp [h a List.mem_cons_self]

theorem foldl_unique {γ δ : Type*} (q : γ → Bool) (g : ℕ → δ) (l : List γ) (m : ℕ) (z : δ) (i : ℕ) (hi : i < l.length)
    (h1 : q l[i] = true) (h2 : ∀ j (hj : j < l.length), j ≠ i → q l[j] = false) :
    (l.zipIdx m).foldl (fun v t => if q t.1 then g t.2 else v) z = g (m + i) := by
  induction l generalizing m z i with
  | nil => simp at hi
  | cons a l ih =>
    rw [List.zipIdx_cons, List.foldl_cons]
    cases i with
    | zero =>
      have ha : q a = true := by simpa using h1
      rw [foldl_none2D]
      · simp [ha]
      · intro b hb
        obtain ⟨j, hj, rfl⟩ := List.getElem_of_mem hb
        have := h2 (j + 1) (by simpa using hj) (by omega)
        simpa using this
    | succ i =>
      have := ih (m + 1) (if q a = true then g m else z) i (by simpa using hi) (by simpa using h1) fun j hj hne => by
        have := h2 (j + 1) (by simpa using hj) (by omega)
        simpa using this
      rw [this]
      congr 1
      omega

/-! ### the matrix `P` -/

/-- The list of blocks covers every cell exactly once. -/
structure Covers (m n : ℕ) (sel : List Rect) : Prop where
  rects : ∀ t ∈ sel, t ∈ allRects m n
  nodup : sel.Nodup
  tiling : IsTiling m n (sel.map Rect.block).toFinset

theorem Covers.exists_unique {m n : ℕ} {sel : List Rect} (h : Covers m n sel) {r c : ℕ} (hr : r < m) (hc : c < n) :
    ∃ i, ∃ hi : i < sel.length, sel[i].block.Mem r c ∧ ∀ j (hj : j < sel.length), sel[j].block.Mem r c → j = i := by
  obtain ⟨b, ⟨hb, hm⟩, hu⟩ := h.tiling.2 r hr c hc
  rw [List.mem_toFinset, List.mem_map] at hb
  obtain ⟨t, ht, rfl⟩ := hb
  obtain ⟨i, hi, rfl⟩ := List.getElem_of_mem ht
  refine ⟨i, hi, hm, fun j hj hmj => ?_⟩
  have := hu sel[j].block ⟨by rw [List.mem_toFinset]; exact List.mem_map_of_mem (List.getElem_mem hj), hmj⟩
  exact block_getElem_inj h.nodup hj hi this

theorem Covers.unique {m n : ℕ} {sel : List Rect} (h : Covers m n sel) {r c i j : ℕ} (hi : i < sel.length)
    (hj : j < sel.length) (h1 : sel[i].block.Mem r c) (h2 : sel[j].block.Mem r c) : i = j := by
  have hin := allRects_inside (h.rects _ (List.getElem_mem hi))
  simp only [Block.Inside] at hin
  obtain ⟨k, hk, _, hu⟩ := h.exists_unique (r := r) (c := c) (by have := h1.2.1; omega) (by have := h1.2.2.2; omega)
  rw [hu i hi h1, hu j hj h2]

theorem Covers.pMatrix {m n : ℕ} {sel : List Rect} (h : Covers m n sel) (init : ℕ → ℕ) {p i : ℕ} (hp : p < m * n)
    (hi : i < sel.length) : pMatrix n init sel p = i ↔ sel[i].block.Mem (p / n) (p % n) := by
  have hn : 0 < n := by
    rcases Nat.eq_zero_or_pos n with h0 | h0
    · simp [h0] at hp
    · exact h0
  have hr : p / n < m := (Nat.div_lt_iff_lt_mul hn).2 hp
  obtain ⟨k, hk, hm, hu⟩ := h.exists_unique hr (Nat.mod_lt p hn)
  have hrow : ∀ j (hj : j < sel.length), (sel[j].row n).contains p = true ↔ sel[j].block.Mem (p / n) (p % n) := by
    intro j hj
    rw [List.contains_iff_mem]
    exact mem_row (mem_allRects.1 (h.rects _ (List.getElem_mem hj))).2.2.2 p
  have : OptBinning.pMatrix n init sel p = 0 + k := by
    refine foldl_unique (fun t => (Rect.row n t).contains p) id sel 0 _ k hk ((hrow k hk).2 hm) fun j hj hne => ?_
    rw [← Bool.not_eq_true, hrow j hj]
    exact fun hmj => hne (hu j hj hmj)
  rw [this, Nat.zero_add]
  constructor
  · rintro rfl; exact hm
  · intro hmi; exact (hu i hi hmi).symm

theorem min?_getD_eq {l : List ℕ} {a : ℕ} (h1 : a ∈ l) (h2 : ∀ b ∈ l, a ≤ b) : l.min?.getD 0 = a := by
  have : l.min? = some a := List.min?_eq_some_iff.2 ⟨h1, h2⟩
  rw [this]; rfl

theorem max?_getD_eq {l : List ℕ} {a : ℕ} (h1 : a ∈ l) (h2 : ∀ b ∈ l, b ≤ a) : l.max?.getD 0 = a := by
  have : l.max? = some a := List.max?_eq_some_iff.2 ⟨h1, h2⟩
  rw [this]; rfl

/-- The bin with the boundaries of a block. -/
def boxOf (splitsX splitsY : List EQ) (b : Block) : Box2 :=
  { xlo := ([⊥] ++ splitsX ++ [⊤]).getD b.left ⊥
    xhi := ([⊥] ++ splitsX ++ [⊤]).getD b.right ⊤
    ylo := ([⊥] ++ splitsY ++ [⊤]).getD b.top ⊥
    yhi := ([⊥] ++ splitsY ++ [⊤]).getD b.bottom ⊤ }

theorem Covers.splitsOptimal {m n : ℕ} {sel : List Rect} (h : Covers m n sel) (init : ℕ → ℕ) (splitsX splitsY : List EQ)
    {i : ℕ} (hi : i < sel.length) :
    splitsOptimal m n splitsX splitsY (OptBinning.pMatrix n init sel) i = boxOf splitsX splitsY sel[i].block := by
  have hin := allRects_inside (h.rects _ (List.getElem_mem hi))
  obtain ⟨i1, i2, i3, i4⟩ := hin
  have hmem : ∀ p, p ∈ (List.range (m * n)).filter (fun p => OptBinning.pMatrix n init sel p == i) ↔
      p < m * n ∧ sel[i].block.Mem (p / n) (p % n) := by
    intro p
    rw [List.mem_filter, List.mem_range, beq_iff_eq]
    exact and_congr_right fun hp => h.pMatrix init hp hi
  have hcell : ∀ r c, sel[i].block.Mem r c →
      r * n + c ∈ (List.range (m * n)).filter (fun p => OptBinning.pMatrix n init sel p == i) ∧
      (r * n + c) / n = r ∧ (r * n + c) % n = c := by
    intro r c hm
    have hc : c < n := by have := hm.2.2.2; omega
    have hr : r < m := by have := hm.2.1; omega
    have e : r * n + c = r * n + 0 + (n * 0 + c) := by ring
    have d : (r * n + c) / n = r := by rw [e, cell_div (by omega)]; simp
    have d2 : (r * n + c) % n = c := by rw [e, cell_mod (by omega)]; simp
    refine ⟨(hmem _).2 ⟨?_, ?_⟩, d, d2⟩
    · calc r * n + c < r * n + n := by omega
        _ = (r + 1) * n := by ring
        _ ≤ m * n := Nat.mul_le_mul_right _ hr
    · rw [d, d2]; exact hm
  simp only [OptBinning.splitsOptimal, boxOf]
  generalize hC : (List.range (m * n)).filter (fun p => OptBinning.pMatrix n init sel p == i) = C at hmem hcell
  generalize hb : sel[i].block = b at *
  have c1 := hcell b.top b.left ⟨le_refl _, i1, le_refl _, i3⟩
  have c2 := hcell (b.bottom - 1) (b.right - 1) ⟨by omega, by omega, by omega, by omega⟩
  have x1 : (C.map (· % n)).min?.getD 0 = b.left := by
    refine min?_getD_eq (List.mem_map.2 ⟨_, c1.1, c1.2.2⟩) ?_
    intro v hv
    obtain ⟨p, hp, rfl⟩ := List.mem_map.1 hv
    exact ((hmem p).1 hp).2.2.2.1
  have x2 : (C.map (· % n)).max?.getD 0 = b.right - 1 := by
    refine max?_getD_eq (List.mem_map.2 ⟨_, c2.1, c2.2.2⟩) ?_
    intro v hv
    obtain ⟨p, hp, rfl⟩ := List.mem_map.1 hv
    have := ((hmem p).1 hp).2.2.2.2
    omega
  have y1 : (C.map (· / n)).min?.getD 0 = b.top := by
    refine min?_getD_eq (List.mem_map.2 ⟨_, c1.1, c1.2.1⟩) ?_
    intro v hv
    obtain ⟨p, hp, rfl⟩ := List.mem_map.1 hv
    exact ((hmem p).1 hp).2.1
  have y2 : (C.map (· / n)).max?.getD 0 = b.bottom - 1 := by
    refine max?_getD_eq (List.mem_map.2 ⟨_, c2.1, c2.2.1⟩) ?_
    intro v hv
    obtain ⟨p, hp, rfl⟩ := List.mem_map.1 hv
    have := ((hmem p).1 hp).2.2.1
    omega
  rw [x1, x2, y1, y2]
  have : b.right - 1 + 1 = b.right := by omega
  have : b.bottom - 1 + 1 = b.bottom := by omega
  simp only [*]

/-! ### boundaries and bin numbers -/

theorem lt_countP_iff {α : Type*} [LinearOrder α] {s : List α} (hs : s.Pairwise (· < ·)) (v : α) {i : ℕ} (hi : i < s.length) :
    i < s.countP (fun t => decide (t ≤ v)) ↔ s[i] ≤ v := by
  induction s generalizing i with
  | nil => simp at hi
  | cons a s ih =>
    obtain ⟨h1, h2⟩ := List.pairwise_cons.1 hs
    by_cases hav : a ≤ v
    · rw [List.countP_cons_of_pos (by simpa using hav)]
      cases i with
      | zero => simpa using hav
      | succ i =>
        have := ih h2 (i := i) (by simpa using hi)
        simpa using this
    · have h0 : (a :: s).countP (fun t => decide (t ≤ v)) = 0 := by
        have hs' : (a :: s).Pairwise (· ≤ ·) := hs.imp le_of_lt
        simp [hav, countP_eq_zero_of_sorted hs' hav]
      rw [h0]
      simp only [Nat.not_lt_zero, false_iff]
      intro hle
      cases i with
      | zero => exact hav (by simpa using hle)
      | succ i =>
        have : a < s[i]'(by simpa using hi) := h1 _ (List.getElem_mem _)
        exact hav (le_of_lt (lt_of_lt_of_le this (by simpa using hle)))

theorem bound_le_iff {s : List EQ} (hs : IsSplits s) {v : EQ} (hv : v ≠ ⊤) {a : ℕ} (ha : a ≤ s.length + 1) (d : EQ) :
    ([⊥] ++ s ++ [⊤]).getD a d ≤ v ↔ a ≤ digitize false s (some v) := by
  simp only [digitize, Bool.false_eq_true, if_false]
  cases a with
  | zero => simp
  | succ a =>
    rw [List.append_assoc, List.singleton_append, List.getD_cons_succ]
    by_cases h : a < s.length
    · rw [List.getD_append _ _ _ _ h, List.getD_eq_getElem _ _ h, ← lt_countP_iff hs.1 v h]
      omega
    · have : a = s.length := by omega
      subst this
      rw [List.getD_append_right _ _ _ _ (le_refl _)]
      have h1 := List.countP_le_length (p := fun t => decide (t ≤ v)) (l := s)
      simp only [Nat.sub_self, List.getD_cons_zero, top_le_iff]
      constructor
      · intro h; exact absurd h hv
      · intro h; omega

theorem bound_strictMono {s : List EQ} (hs : IsSplits s) {a b : ℕ} (hab : a < b) (hb : b ≤ s.length + 1) (d e : EQ) :
    ([⊥] ++ s ++ [⊤]).getD a d < ([⊥] ++ s ++ [⊤]).getD b e := by
  have hsorted : ([⊥] ++ s ++ [⊤] : List EQ).Pairwise (· < ·) := by
    rw [List.append_assoc, List.singleton_append, List.pairwise_cons]
    refine ⟨?_, ?_⟩
    · intro v hv
      rcases List.mem_append.1 hv with h | h
      · exact bot_lt_iff_ne_bot.2 (hs.2 v h).1
      · rw [List.mem_singleton] at h; subst h; exact bot_lt_top
    · rw [List.pairwise_append]
      refine ⟨hs.1, List.pairwise_singleton _ _, ?_⟩
      intro v hv w hw
      rw [List.mem_singleton] at hw
      subst hw
      exact lt_top_iff_ne_top.2 (hs.2 v hv).2
  have hl : ([⊥] ++ s ++ [⊤] : List EQ).length = s.length + 2 := by simp
  rw [List.getD_eq_getElem _ _ (by omega), List.getD_eq_getElem _ _ (by omega)]
  exact List.pairwise_iff_getElem.1 hsorted a b _ _ hab

/-! ### values on an axis -/

variable {α β τ : Type} [DecidableEq α] [DecidableEq β]

theorem fin_ne_top (q : ℚ) : fin q ≠ ⊤ := by
  intro h
  have : ((q : WithTop ℚ) : WithBot (WithTop ℚ)) = ((⊤ : WithTop ℚ) : WithBot (WithTop ℚ)) := h
  rw [WithBot.coe_inj] at this
  exact WithTop.coe_ne_top this

theorem code_ne_top {ax : Axis α} {v : α} (h : Known ax v) : ax.code v ≠ ⊤ := by
  cases ax with
  | numerical val => exact h
  | categorical cats => exact fin_ne_top _

/-- A known value is in an interval iff its code is. -/
theorem onRange_iff_code {ax : Axis α} (hok : IsAxis ax) {v : α} (h : Known ax v) (lo hi : EQ) :
    OnRange ax lo hi v ↔ lo ≤ ax.code v ∧ ax.code v < hi := by
  cases ax with
  | numerical val => rfl
  | categorical cats =>
    simp only [OnRange, Axis.code]
    have hmem : v ∈ cats := h
    constructor
    · rintro ⟨k, hk, h1, h2⟩
      have hkl : k < cats.length := (List.getElem?_eq_some_iff.1 hk).1
      have : cats.idxOf v = k := by
        have e := (List.getElem?_eq_some_iff.1 hk).2
        rw [← e]
        exact List.Nodup.idxOf_getElem hok k hkl
      rw [this]
      exact ⟨h1, h2⟩
    · intro hh
      exact ⟨cats.idxOf v, by rw [List.getElem?_eq_getElem (List.idxOf_lt_length_of_mem hmem)]; simp, hh.1, hh.2⟩

theorem inMask_iff {ax : Axis α} {lo hi : EQ} (hlh : lo < hi) (v : α) : ax.inMask lo hi v = true ↔ OnRange ax lo hi v := by
  cases ax with
  | numerical val => simp [Axis.inMask, OnRange]
  | categorical cats =>
    simp only [Axis.inMask, OnRange, binCategories, List.contains_iff_mem, List.mem_map, List.mem_filter,
      List.mem_zipIdx_iff_getElem?, beq_iff_eq, Prod.exists, exists_and_right, exists_eq_right]
    refine exists_congr fun k => and_congr_right fun _ => ?_
    simp only [digitize, Bool.false_eq_true, if_false, List.countP_cons, List.countP_nil]
    by_cases h1 : lo ≤ fin (k : ℕ) <;> by_cases h2 : hi ≤ fin (k : ℕ)
    · simp [h1, h2]
    · simp [h1, h2, not_le.1 h2]
    · exact absurd (hlh.le.trans h2) h1
    · simp [h1, h2]

/-- The grid cell of a known value decides in which intervals between boundaries it lies. -/
theorem onRange_iff {s : List EQ} (hs : IsSplits s) {ax : Axis α} (hok : IsAxis ax) {v : α} (h : Known ax v) {a b : ℕ}
    (hab : a < b) (hb : b ≤ s.length + 1) :
    OnRange ax (([⊥] ++ s ++ [⊤]).getD a ⊥) (([⊥] ++ s ++ [⊤]).getD b ⊤) v ↔
      a ≤ digitize false s (some (ax.code v)) ∧ digitize false s (some (ax.code v)) < b := by
  rw [onRange_iff_code hok h, bound_le_iff hs (code_ne_top h) (by omega), ← not_le,
    bound_le_iff hs (code_ne_top h) hb, not_le]

end OptBinning
