import Verif.Lemmas.CartTree
import Verif.Lemmas.Binary2D

/-!
# The candidates of strategy `"cart"` are rectangles
-/
namespace OptBinning

open Spec

variable {m n : ℕ} {A : ℕ → ℕ → ℕ} {t : Rect}

theorem mem_cartPath {l : ℕ} : l ∈ cartPath A t ↔ ∃ r c, t.block.Mem r c ∧ A r c = l := by
  simp only [cartPath, List.mem_toFinset, List.mem_flatMap, List.mem_map, List.mem_range, Rect.block, Block.Mem]
  constructor
  · rintro ⟨a, ha, b, hb, rfl⟩
    exact ⟨t.i + a, t.j + b, by omega, rfl⟩
  · rintro ⟨r, c, h, rfl⟩
    refine ⟨r - t.i, by omega, c - t.j, by omega, ?_⟩
    congr 1 <;> omega

/-- At most one non-zero number. -/
theorem card_le_two (l : List ℕ) : (l ++ [0]).toFinset.card ≤ 2 ↔ ∀ a ∈ l, ∀ b ∈ l, a ≠ 0 → b ≠ 0 → a = b := by
  have e : (l ++ [0]).toFinset = insert 0 l.toFinset := by
    ext x; simp [or_comm]
  rw [e]
  constructor
  · intro h a ha b hb h1 h2
    by_contra hne
    have hsub : ({0, a, b} : Finset ℕ) ⊆ insert 0 l.toFinset := by
      intro x hx
      simp only [Finset.mem_insert, Finset.mem_singleton] at hx
      rcases hx with rfl | rfl | rfl <;> simp_all
    have h3 : ({0, a, b} : Finset ℕ).card = 3 := by
      rw [Finset.card_eq_three]
      exact ⟨0, a, b, Ne.symm h1, Ne.symm h2, hne, rfl⟩
    have := Finset.card_le_card hsub
    omega
  · intro h
    by_cases hz : ∀ a ∈ l, a = 0
    · have : insert 0 l.toFinset = ({0} : Finset ℕ) := by
        ext x
        simp only [Finset.mem_insert, List.mem_toFinset, Finset.mem_singleton]
        exact ⟨fun hx => hx.elim id (hz x), Or.inl⟩
      rw [this]; simp
    · push Not at hz
      obtain ⟨a, ha, h0⟩ := hz
      have : insert 0 l.toFinset ⊆ ({0, a} : Finset ℕ) := by
        intro x hx
        simp only [Finset.mem_insert, List.mem_toFinset, Finset.mem_singleton] at *
        rcases hx with rfl | hx
        · exact Or.inl rfl
        · by_cases hx0 : x = 0
          · exact Or.inl hx0
          · exact Or.inr (h x hx a ha hx0 h0)
      exact (Finset.card_le_card this).trans Finset.card_le_two

theorem countP_range (k : ℕ) (q : ℕ → Prop) [DecidablePred q] :
    (List.range k).countP (fun a => decide (q a)) = ((Finset.range k).filter q).card := by
  rw [List.countP_eq_length_filter, ← List.toFinset_card_of_nodup (List.nodup_range.filter _)]
  congr 1
  ext x; simp

/-- The cells of the union of classes. -/
def cartRowSet (n : ℕ) (A : ℕ → ℕ → ℕ) (path : Finset ℕ) (r : ℕ) : Finset ℕ := (Finset.range n).filter fun c => A r c ∈ path
def cartColSet (m : ℕ) (A : ℕ → ℕ → ℕ) (path : Finset ℕ) (c : ℕ) : Finset ℕ := (Finset.range m).filter fun r => A r c ∈ path

theorem cartShape_iff (path : Finset ℕ) : cartShape m n A path = true ↔
    (∀ c < n, ∀ c' < n, cartColSet m A path c ≠ ∅ → cartColSet m A path c' ≠ ∅ →
      (cartColSet m A path c).card = (cartColSet m A path c').card) ∧
    (∀ r < m, ∀ r' < m, cartRowSet n A path r ≠ ∅ → cartRowSet n A path r' ≠ ∅ →
      (cartRowSet n A path r).card = (cartRowSet n A path r').card) := by
  simp only [cartShape, Bool.and_eq_true, decide_eq_true_eq, card_le_two]
  simp only [List.mem_map, List.mem_range, forall_exists_index, and_imp, forall_apply_eq_imp_iff₂, countP_range, ne_eq,
    Finset.card_eq_zero]
  rfl

/-- The union of the classes in `path` is the rectangle `s`. -/
def IsUnion (m n : ℕ) (A : ℕ → ℕ → ℕ) (path : Finset ℕ) (s : Rect) : Prop :=
  ∀ r < m, ∀ c < n, A r c ∈ path ↔ s.block.Mem r c

theorem cartShape_of_union {path : Finset ℕ} {s : Rect} (hs : s ∈ allRects m n) (h : IsUnion m n A path s) :
    cartShape m n A path = true := by
  have hs' := mem_allRects.1 hs
  rw [cartShape_iff]
  constructor
  · have key : ∀ c < n, cartColSet m A path c ≠ ∅ → cartColSet m A path c = Finset.Ico s.i (s.i + s.k) := by
      intro c hc hne
      obtain ⟨r, hr⟩ := Finset.nonempty_iff_ne_empty.2 hne
      simp only [cartColSet, Finset.mem_filter, Finset.mem_range] at hr
      have hm := (h r hr.1 c hc).1 hr.2
      ext r'
      simp only [cartColSet, Finset.mem_filter, Finset.mem_range, Finset.mem_Ico]
      simp only [Rect.block, Block.Mem] at hm
      constructor
      · rintro ⟨h1, h2⟩
        have := (h r' h1 c hc).1 h2
        simp only [Rect.block, Block.Mem] at this
        omega
      · intro h1
        refine ⟨by omega, (h r' (by omega) c hc).2 ?_⟩
        simp only [Rect.block, Block.Mem]
        omega
    intro c hc c' hc' h1 h2
    rw [key c hc h1, key c' hc' h2]
  · have key : ∀ r < m, cartRowSet n A path r ≠ ∅ → cartRowSet n A path r = Finset.Ico s.j (s.j + s.l) := by
      intro r hr hne
      obtain ⟨c, hc⟩ := Finset.nonempty_iff_ne_empty.2 hne
      simp only [cartRowSet, Finset.mem_filter, Finset.mem_range] at hc
      have hm := (h r hr c hc.1).1 hc.2
      ext c'
      simp only [cartRowSet, Finset.mem_filter, Finset.mem_range, Finset.mem_Ico]
      simp only [Rect.block, Block.Mem] at hm
      constructor
      · rintro ⟨h1, h2⟩
        have := (h r hr c' h1).1 h2
        simp only [Rect.block, Block.Mem] at this
        omega
      · intro h1
        refine ⟨by omega, (h r hr c' (by omega)).2 ?_⟩
        simp only [Rect.block, Block.Mem]
        omega
    intro c hc c' hc' h1 h2
    rw [key c hc h1, key c' hc' h2]

/-- A non-empty convex set of numbers below a bound is an interval. -/
theorem convex_interval (s : Finset ℕ) (hne : s.Nonempty) (hc : ∀ a ∈ s, ∀ b ∈ s, ∀ x, a ≤ x → x ≤ b → x ∈ s) :
    ∃ lo len, 1 ≤ len ∧ ∀ x, x ∈ s ↔ lo ≤ x ∧ x < lo + len := by
  refine ⟨s.min' hne, s.max' hne - s.min' hne + 1, by omega, fun x => ?_⟩
  have hle := s.min'_le_max' hne
  constructor
  · intro hx
    have h1 := s.min'_le x hx
    have h2 := s.le_max' x hx
    omega
  · intro hx
    exact hc _ (s.min'_mem hne) _ (s.max'_mem hne) x hx.1 (by omega)

theorem union_of_shape (hA : Boxy A) (ht : t ∈ allRects m n) (h : cartShape m n A (cartPath A t) = true) :
    ∃ s ∈ allRects m n, IsUnion m n A (cartPath A t) s := by
  have ht' := mem_allRects.1 ht
  rw [cartShape_iff] at h
  obtain ⟨hcol, hrow⟩ := h
  have hin : ∀ r c, t.i ≤ r → r < t.i + t.k → t.j ≤ c → c < t.j + t.l → A r c ∈ cartPath A t := by
    intro r c h1 h2 h3 h4
    exact mem_cartPath.2 ⟨r, c, ⟨h1, h2, h3, h4⟩, rfl⟩
  -- a class of the path meets the block
  have meet : ∀ r c, A r c ∈ cartPath A t → ∃ r0 c0, t.block.Mem r0 c0 ∧ A r0 c0 = A r c := fun r c h => mem_cartPath.1 h
  -- moving towards the block stays in the union
  have toRow : ∀ r c r', A r c ∈ cartPath A t → (r ≤ r' ∧ r' ≤ t.i ∨ t.i + t.k - 1 ≤ r' ∧ r' ≤ r) → A r' c ∈ cartPath A t := by
    intro r c r' hm hr'
    obtain ⟨r0, c0, hb, he⟩ := meet r c hm
    simp only [Rect.block, Block.Mem] at hb
    have e1 : A r0 c = A r c := (hA.product r0 c0 r c he).trans he
    have : A r' c = A r c := by
      rcases hr' with hr' | hr'
      · exact hA.rows r r' r0 c hr'.1 (by omega) e1.symm
      · rw [hA.rows r0 r' r c (by omega) hr'.2 e1, e1]
    rw [this]; exact hm
  have toCol : ∀ r c c', A r c ∈ cartPath A t → (c ≤ c' ∧ c' ≤ t.j ∨ t.j + t.l - 1 ≤ c' ∧ c' ≤ c) → A r c' ∈ cartPath A t := by
    intro r c c' hm hc'
    obtain ⟨r0, c0, hb, he⟩ := meet r c hm
    simp only [Rect.block, Block.Mem] at hb
    have e1 : A r c0 = A r c := hA.product r c r0 c0 he.symm
    have : A r c' = A r c := by
      rcases hc' with hc' | hc'
      · exact hA.cols c c' c0 r hc'.1 (by omega) e1.symm
      · rw [hA.cols c0 c' c r (by omega) hc'.2 e1, e1]
    rw [this]; exact hm
  -- columns outside the block contain all rows of the block
  have full : ∀ c < n, ∀ r < m, A r c ∈ cartPath A t → ∀ r', t.i ≤ r' → r' < t.i + t.k → A r' c ∈ cartPath A t := by
    intro c hc r hr hm r' h1 h2
    rcases Nat.lt_or_ge c t.j with hcj | hcj
    · have hsub : cartColSet m A (cartPath A t) c ⊆ cartColSet m A (cartPath A t) t.j := by
        intro x hx
        simp only [cartColSet, Finset.mem_filter, Finset.mem_range] at hx ⊢
        exact ⟨hx.1, toCol x c t.j hx.2 (Or.inl ⟨by omega, le_refl _⟩)⟩
      have hne : cartColSet m A (cartPath A t) c ≠ ∅ := Finset.nonempty_iff_ne_empty.1 ⟨r, by simp [cartColSet, hr, hm]⟩
      have hne' : cartColSet m A (cartPath A t) t.j ≠ ∅ := fun h => hne (Finset.subset_empty.1 (h ▸ hsub))
      have heq := Finset.eq_of_subset_of_card_le hsub (hcol c hc t.j (by omega) hne hne').ge
      have : r' ∈ cartColSet m A (cartPath A t) t.j := by
        simp only [cartColSet, Finset.mem_filter, Finset.mem_range]
        exact ⟨by omega, hin _ _ h1 h2 (le_refl _) (by omega)⟩
      rw [← heq] at this
      simp only [cartColSet, Finset.mem_filter] at this
      exact this.2
    · rcases Nat.lt_or_ge c (t.j + t.l) with hcj' | hcj'
      · exact hin _ _ h1 h2 hcj hcj'
      · have hsub : cartColSet m A (cartPath A t) c ⊆ cartColSet m A (cartPath A t) (t.j + t.l - 1) := by
          intro x hx
          simp only [cartColSet, Finset.mem_filter, Finset.mem_range] at hx ⊢
          exact ⟨hx.1, toCol x c _ hx.2 (Or.inr ⟨le_refl _, by omega⟩)⟩
        have hne : cartColSet m A (cartPath A t) c ≠ ∅ := Finset.nonempty_iff_ne_empty.1 ⟨r, by simp [cartColSet, hr, hm]⟩
        have hne' : cartColSet m A (cartPath A t) (t.j + t.l - 1) ≠ ∅ := fun h => hne (Finset.subset_empty.1 (h ▸ hsub))
        have heq := Finset.eq_of_subset_of_card_le hsub (hcol c hc (t.j + t.l - 1) (by omega) hne hne').ge
        have : r' ∈ cartColSet m A (cartPath A t) (t.j + t.l - 1) := by
          simp only [cartColSet, Finset.mem_filter, Finset.mem_range]
          exact ⟨by omega, hin _ _ h1 h2 (by omega) (by omega)⟩
        rw [← heq] at this
        simp only [cartColSet, Finset.mem_filter] at this
        exact this.2
  -- every row of the union has the same columns
  have same : ∀ r < m, ∀ c0 < n, A r c0 ∈ cartPath A t → ∀ c < n, A r c ∈ cartPath A t ↔ A t.i c ∈ cartPath A t := by
    have inner : ∀ r, t.i ≤ r → r < t.i + t.k → ∀ c < n, A r c ∈ cartPath A t ↔ A t.i c ∈ cartPath A t := by
      intro r h1 h2 c hc
      exact ⟨fun h => full c hc r (by omega) h _ (le_refl _) (by omega), fun h => full c hc t.i (by omega) h _ h1 h2⟩
    intro r hr c0 hc0 hm0 c hc
    have outer : ∀ b, b < m → t.i ≤ b → b < t.i + t.k → (r ≤ b ∧ b ≤ t.i ∨ t.i + t.k - 1 ≤ b ∧ b ≤ r) →
        (A r c ∈ cartPath A t ↔ A t.i c ∈ cartPath A t) := by
      intro b hb hb1 hb2 hb3
      have hsub : cartRowSet n A (cartPath A t) r ⊆ cartRowSet n A (cartPath A t) b := by
        intro x hx
        simp only [cartRowSet, Finset.mem_filter, Finset.mem_range] at hx ⊢
        exact ⟨hx.1, toRow r x b hx.2 hb3⟩
      have hne : cartRowSet n A (cartPath A t) r ≠ ∅ := Finset.nonempty_iff_ne_empty.1 ⟨c0, by simp [cartRowSet, hc0, hm0]⟩
      have hne' : cartRowSet n A (cartPath A t) b ≠ ∅ := fun h => hne (Finset.subset_empty.1 (h ▸ hsub))
      have heq := Finset.eq_of_subset_of_card_le hsub (hrow r hr b hb hne hne').ge
      rw [← inner b hb1 hb2 c hc]
      have := congrArg (c ∈ ·) heq
      simp only [cartRowSet, Finset.mem_filter, Finset.mem_range, hc, true_and, eq_iff_iff] at this
      exact this
    rcases Nat.lt_or_ge r t.i with hlt | hge
    · exact outer t.i (by omega) (le_refl _) (by omega) (Or.inl ⟨by omega, le_refl _⟩)
    · rcases Nat.lt_or_ge r (t.i + t.k) with hlt' | hge'
      · exact inner r hge hlt' c hc
      · exact outer (t.i + t.k - 1) (by omega) (by omega) (by omega) (Or.inr ⟨le_refl _, by omega⟩)
  -- the columns and the rows of the union
  obtain ⟨lo, len, hlen, hC⟩ := convex_interval (cartRowSet n A (cartPath A t) t.i)
    ⟨t.j, by
      simp only [cartRowSet, Finset.mem_filter, Finset.mem_range]
      exact ⟨by omega, hin _ _ (le_refl _) (by omega) (le_refl _) (by omega)⟩⟩ (by
    intro a ha b hb x hax hxb
    simp only [cartRowSet, Finset.mem_filter, Finset.mem_range] at *
    refine ⟨by omega, ?_⟩
    rcases Nat.lt_or_ge x t.j with h | h
    · exact toCol t.i a x ha.2 (Or.inl ⟨hax, by omega⟩)
    · rcases Nat.lt_or_ge x (t.j + t.l) with h' | h'
      · exact hin _ _ (le_refl _) (by omega) h h'
      · exact toCol t.i b x hb.2 (Or.inr ⟨by omega, hxb⟩))
  obtain ⟨lo', len', hlen', hR⟩ := convex_interval (cartColSet m A (cartPath A t) t.j)
    ⟨t.i, by
      simp only [cartColSet, Finset.mem_filter, Finset.mem_range]
      exact ⟨by omega, hin _ _ (le_refl _) (by omega) (le_refl _) (by omega)⟩⟩ (by
    intro a ha b hb x hax hxb
    simp only [cartColSet, Finset.mem_filter, Finset.mem_range] at *
    refine ⟨by omega, ?_⟩
    rcases Nat.lt_or_ge x t.i with h | h
    · exact toRow a t.j x ha.2 (Or.inl ⟨hax, by omega⟩)
    · rcases Nat.lt_or_ge x (t.i + t.k) with h' | h'
      · exact hin _ _ h h' (le_refl _) (by omega)
      · exact toRow b t.j x hb.2 (Or.inr ⟨by omega, hxb⟩))
  have hCm : ∀ x, lo ≤ x ∧ x < lo + len ↔ x < n ∧ A t.i x ∈ cartPath A t := by
    intro x; rw [← hC]; simp [cartRowSet]
  have hRm : ∀ x, lo' ≤ x ∧ x < lo' + len' ↔ x < m ∧ A x t.j ∈ cartPath A t := by
    intro x; rw [← hR]; simp [cartColSet]
  have hb1 := ((hCm (lo + len - 1)).1 (by omega)).1
  have hb2 := ((hRm (lo' + len' - 1)).1 (by omega)).1
  have hij : A t.i t.j ∈ cartPath A t := hin _ _ (le_refl _) (by omega) (le_refl _) (by omega)
  refine ⟨⟨lo', lo, len', len⟩, mem_allRects.2 ⟨hlen', by show lo' + len' ≤ m; omega, hlen, by show lo + len ≤ n; omega⟩, ?_⟩
  intro r hr c hc
  simp only [Rect.block, Block.Mem]
  constructor
  · intro hm
    have h1 := (hCm c).2 ⟨hc, (same r hr c hc hm c hc).1 hm⟩
    have h2 := (hRm r).2 ⟨hr, (same r hr c hc hm t.j (by omega)).2 hij⟩
    omega
  · intro hm
    have h1 := (hCm c).1 (by omega)
    have h2 := (hRm r).1 (by omega)
    exact (same r hr t.j (by omega) h2.2 c hc).2 h1.2

end OptBinning
