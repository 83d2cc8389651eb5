import Verif.Lemmas.CartRows

/-!
# The rectangles of strategy `"cart"` in the order of the loops
-/
namespace OptBinning

open Spec

variable {m n : ℕ} {A : ℕ → ℕ → ℕ} {t : Rect}

/-- The order of the corners in the loops. -/
def CornerLE (s t : Rect) : Prop := s.i < t.i ∨ (s.i = t.i ∧ s.j ≤ t.j)

theorem CornerLE.refl (s : Rect) : CornerLE s s := by simp [CornerLE]

theorem allRects_sorted (m n : ℕ) : (allRects m n).Pairwise CornerLE := by
  unfold allRects
  rw [List.pairwise_flatMap]
  constructor
  · intro i _
    rw [List.pairwise_flatMap]
    constructor
    · intro j _
      rw [List.pairwise_flatMap]
      constructor
      · intro k _
        rw [List.pairwise_map]
        exact List.pairwise_of_forall fun _ _ => CornerLE.refl _
      · refine List.pairwise_of_forall fun k k' x hx y hy => ?_
        simp only [List.mem_map] at hx hy
        obtain ⟨_, _, rfl⟩ := hx
        obtain ⟨_, _, rfl⟩ := hy
        simp [CornerLE]
    · refine List.pairwise_lt_range.imp fun {j j'} h x hx y hy => ?_
      simp only [List.mem_flatMap, List.mem_map] at hx hy
      obtain ⟨_, _, _, _, rfl⟩ := hx
      obtain ⟨_, _, _, _, rfl⟩ := hy
      simp [CornerLE, h.le]
  · refine List.pairwise_lt_range.imp fun {i i'} h x hx y hy => ?_
    simp only [List.mem_flatMap, List.mem_map] at hx hy
    obtain ⟨_, _, _, _, _, _, rfl⟩ := hx
    obtain ⟨_, _, _, _, _, _, rfl⟩ := hy
    simp [CornerLE, h]

/-- The condition for a row. -/
def GoodPath (m n : ℕ) (A : ℕ → ℕ → ℕ) (keep : List ℕ → Bool) (path : Finset ℕ) : Prop :=
  1 < path.card ∧ cartShape m n A path = true ∧ keep (cartRow m n A path) = true

/-- The state of the loops after the blocks of `L`. -/
structure CartState (m n : ℕ) (A : ℕ → ℕ → ℕ) (keep : List ℕ → Bool) (L : List Rect)
    (s : List (Finset ℕ) × List (List ℕ)) (ts : List Rect) : Prop where
  sub : ts.Sublist L
  rows : s.2 = ts.map fun t => cartRow m n A (cartPath A t)
  good : ∀ t ∈ ts, GoodPath m n A keep (cartPath A t)
  distinct : ts.Pairwise fun a b => cartPath A a ≠ cartPath A b
  seen : ∀ t ∈ ts, cartPath A t ∈ s.1
  back : ∀ q ∈ s.1, GoodPath m n A keep q → ∃ t ∈ ts, cartPath A t = q
  all : ∀ t ∈ L, GoodPath m n A keep (cartPath A t) → cartPath A t ∈ s.1
  first : ∀ t ∈ ts, ∀ t' ∈ L, cartPath A t' = cartPath A t → CornerLE t t'

theorem cartState_turn {keep : List ℕ → Bool} {L : List Rect} {s : List (Finset ℕ) × List (List ℕ)} {ts : List Rect}
    (h : CartState m n A keep L s ts) (hL : ∀ a ∈ L, CornerLE a t) :
    ∃ ts', CartState m n A keep (L ++ [t]) (cartTurn m n A keep s t) ts' := by
  have first' : ∀ u ∈ ts, ∀ t' ∈ L ++ [t], cartPath A t' = cartPath A u → CornerLE u t' := by
    intro u hu t' ht' e
    rcases List.mem_append.1 ht' with h' | h'
    · exact h.first u hu t' h' e
    · rw [List.mem_singleton.1 h']; exact hL u (h.sub.mem hu)
  by_cases h1 : cartPath A t ∈ s.1
  · refine ⟨ts, ⟨h.sub.trans (List.sublist_append_left _ _), ?_, h.good, h.distinct, ?_, ?_, ?_, first'⟩⟩
    · simp [cartTurn, h1, h.rows]
    · simpa [cartTurn, h1] using h.seen
    · simpa [cartTurn, h1] using h.back
    · intro u hu hg
      simp only [cartTurn, h1, if_true]
      rcases List.mem_append.1 hu with h' | h'
      · exact h.all u h' hg
      · rw [List.mem_singleton.1 h']; exact h1
  by_cases hg : GoodPath m n A keep (cartPath A t)
  · have hs : cartTurn m n A keep s t = (s.1 ++ [cartPath A t], s.2 ++ [cartRow m n A (cartPath A t)]) := by
      simp only [cartTurn, h1, if_false, hg.1, if_true, hg.2.1, hg.2.2]
    rw [hs]
    refine ⟨ts ++ [t], ⟨h.sub.append (List.Sublist.refl _), ?_, ?_, ?_, ?_, ?_, ?_, ?_⟩⟩
    · simp [h.rows]
    · intro u hu
      rcases List.mem_append.1 hu with h' | h'
      · exact h.good u h'
      · rw [List.mem_singleton.1 h']; exact hg
    · rw [List.pairwise_append]
      refine ⟨h.distinct, by simp, fun a ha b hb e => ?_⟩
      rw [List.mem_singleton.1 hb] at e
      exact h1 (e ▸ h.seen a ha)
    · intro u hu
      rcases List.mem_append.1 hu with h' | h'
      · exact List.mem_append_left _ (h.seen u h')
      · rw [List.mem_singleton.1 h']; simp
    · intro q hq hgq
      rcases List.mem_append.1 hq with h' | h'
      · obtain ⟨u, hu, e⟩ := h.back q h' hgq
        exact ⟨u, List.mem_append_left _ hu, e⟩
      · exact ⟨t, by simp, (List.mem_singleton.1 h').symm⟩
    · intro u hu hgu
      rcases List.mem_append.1 hu with h' | h'
      · exact List.mem_append_left _ (h.all u h' hgu)
      · rw [List.mem_singleton.1 h']; simp
    · intro u hu t' ht' e
      rcases List.mem_append.1 hu with h' | h'
      · exact first' u h' t' ht' e
      · rw [List.mem_singleton.1 h'] at e ⊢
        rcases List.mem_append.1 ht' with h2 | h2
        · exact absurd (e ▸ h.all t' h2 (e ▸ hg)) h1
        · rw [List.mem_singleton.1 h2]; exact CornerLE.refl _
  · have hs : (cartTurn m n A keep s t).2 = s.2 ∧
        ((cartTurn m n A keep s t).1 = s.1 ∨ (cartTurn m n A keep s t).1 = s.1 ++ [cartPath A t]) := by
      simp only [cartTurn, h1, if_false]
      split_ifs with h2 h3 h4
      · exact absurd ⟨h2, h3, h4⟩ hg
      all_goals simp
    have hsub : ∀ q ∈ s.1, q ∈ (cartTurn m n A keep s t).1 := by
      intro q hq
      rcases hs.2 with e | e <;> rw [e]
      · exact hq
      · exact List.mem_append_left _ hq
    refine ⟨ts, ⟨h.sub.trans (List.sublist_append_left _ _), ?_, h.good, h.distinct, fun u hu => hsub _ (h.seen u hu), ?_, ?_, first'⟩⟩
    · rw [hs.1, h.rows]
    · intro q hq hgq
      rcases hs.2 with e | e <;> rw [e] at hq
      · exact h.back q hq hgq
      · rcases List.mem_append.1 hq with h' | h'
        · exact h.back q h' hgq
        · exact absurd (List.mem_singleton.1 h' ▸ hgq) hg
    · intro u hu hgu
      rcases List.mem_append.1 hu with h' | h'
      · exact hsub _ (h.all u h' hgu)
      · exact absurd (List.mem_singleton.1 h' ▸ hgu) hg

theorem cartState_all (keep : List ℕ → Bool) (L : List Rect) (hL : L.Pairwise CornerLE) :
    ∃ ts, CartState m n A keep L (L.foldl (cartTurn m n A keep) ([], [])) ts := by
  induction L using List.reverseRecOn with
  | nil => exact ⟨[], ⟨by simp, rfl, by simp, by simp, by simp, by simp, by simp, by simp⟩⟩
  | append_singleton L t ih =>
    rw [List.pairwise_append] at hL
    obtain ⟨ts, h⟩ := ih hL.1
    rw [List.foldl_append]
    exact cartState_turn h fun a ha => hL.2.2 a ha t (by simp)

theorem row_sorted {s : Rect} (hs : s.j + s.l ≤ n) : (s.row n).Pairwise (· < ·) := by
  rw [Rect.row, List.pairwise_map, cachedRectangle, List.pairwise_flatMap]
  constructor
  · intro a _
    rw [List.pairwise_map]
    exact List.pairwise_lt_range.imp fun h => by omega
  · refine List.pairwise_lt_range.imp fun {a a'} h x hx y hy => ?_
    simp only [List.mem_map, List.mem_range] at hx hy
    obtain ⟨b, hb, rfl⟩ := hx
    obtain ⟨b', hb', rfl⟩ := hy
    have : n * a + n ≤ n * a' := by rw [← Nat.mul_succ]; exact Nat.mul_le_mul_left _ h
    omega

/-- The row of a path whose union is a rectangle. -/
theorem row_of_union {path : Finset ℕ} {s : Rect} (hs : s ∈ allRects m n) (h : IsUnion m n A path s) :
    cartRow m n A path = s.row n := by
  have hs' := mem_allRects.1 hs
  have hn : 0 < n := by omega
  refine List.Perm.eq_of_pairwise (le := (· < ·)) (fun a b _ _ h1 h2 => absurd h1 (by omega)) (List.pairwise_lt_range.filter _)
    (row_sorted hs'.2.2.2) ((List.perm_ext_iff_of_nodup (List.nodup_range.filter _) ?_).2 fun p => ?_)
  · exact (row_sorted hs'.2.2.2).imp fun h => by omega
  · rw [mem_row hs'.2.2.2, List.mem_filter, List.mem_range, decide_eq_true_eq, ravel]
    constructor
    · rintro ⟨h1, h2⟩
      exact (h _ ((Nat.div_lt_iff_lt_mul hn).2 h1) _ (Nat.mod_lt _ hn)).1 h2
    · intro hm
      have h1 : p / n < m := by have := hm.2.1; simp only [Rect.block] at this; omega
      exact ⟨(Nat.div_lt_iff_lt_mul hn).1 h1, (h _ h1 _ (Nat.mod_lt _ hn)).2 hm⟩

theorem mem_inside {s : Rect} (hs : s ∈ allRects m n) {r c : ℕ} (h : s.block.Mem r c) : r < m ∧ c < n := by
  have hs' := mem_allRects.1 hs
  simp only [Block.Mem, Rect.block] at h
  omega

theorem path_of_union {s : Rect} (ht : t ∈ allRects m n) (hs : s ∈ allRects m n)
    (h : IsUnion m n A (cartPath A t) s) : cartPath A s = cartPath A t := by
  ext l
  rw [mem_cartPath]
  constructor
  · rintro ⟨r, c, hm, rfl⟩
    obtain ⟨h1, h2⟩ := mem_inside hs hm
    exact (h r h1 c h2).2 hm
  · intro hl
    obtain ⟨r, c, hm, rfl⟩ := mem_cartPath.1 hl
    obtain ⟨h1, h2⟩ := mem_inside ht hm
    exact ⟨r, c, (h r h1 c h2).1 hl, rfl⟩

theorem rect_ext {s s' : Rect} (hs : s ∈ allRects m n) (hs' : s' ∈ allRects m n)
    (h : ∀ r c, s.block.Mem r c ↔ s'.block.Mem r c) : s = s' := by
  have h1 := mem_allRects.1 hs
  have h2 := mem_allRects.1 hs'
  simp only [Block.Mem, Rect.block] at h
  have a1 := (h s.i s.j).1 (by omega)
  have a2 := (h s'.i s'.j).2 (by omega)
  have a3 := (h (s.i + s.k - 1) (s.j + s.l - 1)).1 (by omega)
  have a4 := (h (s'.i + s'.k - 1) (s'.j + s'.l - 1)).2 (by omega)
  cases s; cases s'
  simp only [Rect.mk.injEq] at *
  omega

/-- The candidates of strategy `"cart"`: all rectangles which are unions of at least two classes and satisfy the limits. -/
theorem cart_cands (hA : Boxy A) (keep : List ℕ → Bool) :
    ∃ cands : List Rect, cartRows m n A keep = cands.map (Rect.row n) ∧ cands.Nodup ∧ cands.Pairwise CornerLE ∧
      ∀ s, s ∈ cands ↔ s ∈ allRects m n ∧ IsUnion m n A (cartPath A s) s ∧ 1 < (cartPath A s).card ∧ keep (s.row n) = true := by
  obtain ⟨ts, h⟩ := cartState_all (m := m) (n := n) (A := A) keep (allRects m n) (allRects_sorted m n)
  have hex : ∀ t : Rect, ∃ s : Rect, t ∈ ts → s ∈ allRects m n ∧ IsUnion m n A (cartPath A t) s := by
    intro t
    by_cases ht : t ∈ ts
    · obtain ⟨s, h1, h2⟩ := union_of_shape hA (h.sub.mem ht) (h.good t ht).2.1
      exact ⟨s, fun _ => ⟨h1, h2⟩⟩
    · exact ⟨t, fun h => absurd h ht⟩
  choose f hf using hex
  have hpath : ∀ t ∈ ts, cartPath A (f t) = cartPath A t := fun t ht =>
    path_of_union (h.sub.mem ht) (hf t ht).1 (hf t ht).2
  have hcorner : ∀ t ∈ ts, (f t).i = t.i ∧ (f t).j = t.j := by
    intro t ht
    have h1 := h.first t ht (f t) (hf t ht).1 (hpath t ht)
    have ht' := mem_allRects.1 (h.sub.mem ht)
    have h2 := ((hf t ht).2 t.i (by omega) t.j (by omega)).1 (mem_cartPath.2 ⟨t.i, t.j, by simp only [Block.Mem, Rect.block]; omega, rfl⟩)
    simp only [Block.Mem, Rect.block] at h2
    unfold CornerLE at h1
    omega
  refine ⟨ts.map f, ?_, ?_, ?_, ?_⟩
  · rw [cartRows, h.rows, List.map_map]
    refine List.map_congr_left fun t ht => ?_
    exact row_of_union (hf t ht).1 (hf t ht).2
  · rw [List.Nodup, List.pairwise_map]
    refine h.distinct.imp_of_mem fun {a b} ha hb hne e => hne ?_
    rw [← hpath a ha, ← hpath b hb, e]
  · rw [List.pairwise_map]
    refine (List.Pairwise.sublist h.sub (allRects_sorted m n)).imp_of_mem fun {a b} ha hb hle => ?_
    have h1 := hcorner a ha
    have h2 := hcorner b hb
    unfold CornerLE at *
    omega
  · intro s
    rw [List.mem_map]
    constructor
    · rintro ⟨t, ht, rfl⟩
      have hg := h.good t ht
      rw [hpath t ht]
      refine ⟨(hf t ht).1, (hf t ht).2, hg.1, ?_⟩
      rw [← row_of_union (hf t ht).1 (hf t ht).2]
      exact hg.2.2
    · rintro ⟨h1, h2, h3, h4⟩
      have hg : GoodPath m n A keep (cartPath A s) :=
        ⟨h3, cartShape_of_union h1 h2, by rw [row_of_union h1 h2]; exact h4⟩
      obtain ⟨t, ht, e⟩ := h.back _ (h.all s h1 hg) hg
      refine ⟨t, ht, rect_ext (hf t ht).1 h1 fun r c => ?_⟩
      have h5 := (hf t ht).2
      rw [e] at h5
      constructor
      · intro hm
        obtain ⟨a, b⟩ := mem_inside (hf t ht).1 hm
        exact (h2 r a c b).1 ((h5 r a c b).2 hm)
      · intro hm
        obtain ⟨a, b⟩ := mem_inside h1 hm
        exact (h5 r a c b).1 ((h2 r a c b).2 hm)

end OptBinning
