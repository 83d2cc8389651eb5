import Verif.Spec.Cart2D
import Verif.Lemmas.Fit2D

/-!
# The matrix of leaves of a decision tree
-/
namespace OptBinning

open Spec Relation

variable {t : CartTree} {r c : ℕ}

/-- The step holds for the cell. -/
def CartStep.sat (s : CartStep) (r c : ℕ) : Prop := if s.onX then s.ok c = true else s.ok r = true

theorem cartMask_iff (l : List CartStep) (r c : ℕ) : cartMask l r c = true ↔ ∀ s ∈ l, s.sat r c := by
  simp only [cartMask, Bool.and_eq_true, List.all_eq_true, ← forall₂_and]
  refine forall₂_congr fun s _ => ?_
  cases h : s.onX <;> simp [CartStep.sat, h]

theorem step_sat (hf : t.feature.getD p 0 = 0 ∨ t.feature.getD p 0 = 1) (side : Bool) : (t.step (p, side)).sat r c ↔
    (((if t.feature.getD p 0 = 1 then (r : ℚ) else (c : ℚ)) ≤ t.threshold.getD p 0) ↔ side = true) := by
  rw [List.getD_eq_getElem?_getD] at hf
  rcases hf with h | h <;> cases side <;> simp [CartStep.sat, CartTree.step, h, CartStep.ok]

theorem WellFormed.parent (hw : t.WellFormed) {v : ℕ} (hv : v < t.left.length) (h0 : 0 < v) :
    (t.parent v).1 < t.left.length ∧
    (if (t.parent v).2 then t.left.getD (t.parent v).1 0 else t.right.getD (t.parent v).1 0) = (v : ℤ) := by
  unfold CartTree.parent
  by_cases hm : (v : ℤ) ∈ t.left
  · rw [if_pos hm]
    have hlt := List.idxOf_lt_length_of_mem hm
    refine ⟨hlt, ?_⟩
    rw [if_pos rfl, List.getD_eq_getElem _ _ hlt]
    exact List.getElem_idxOf hlt
  · rw [if_neg hm]
    obtain ⟨⟨p, side⟩, ⟨hp, he⟩, _⟩ := hw.parents v hv h0
    have hside : side = false := by
      cases side
      · rfl
      · simp only [if_true] at he hp
        rw [List.getD_eq_getElem _ _ hp] at he
        exact absurd (he ▸ List.getElem_mem hp) hm
    subst hside
    simp only [Bool.false_eq_true, if_false] at he hp
    have hp' : p < t.right.length := by rw [hw.length]; exact hp
    rw [List.getD_eq_getElem _ _ hp'] at he
    have hm' : (v : ℤ) ∈ t.right := he ▸ List.getElem_mem hp'
    have hlt := List.idxOf_lt_length_of_mem hm'
    refine ⟨by rw [← hw.length]; exact hlt, ?_⟩
    rw [if_neg (by simp), List.getD_eq_getElem _ _ hlt]
    exact List.getElem_idxOf hlt

theorem WellFormed.parent_lt (hw : t.WellFormed) {v p : ℕ} {side : Bool} (hp : p < t.left.length)
    (h : (if side then t.left.getD p 0 else t.right.getD p 0) = (v : ℤ)) :
    p < v ∧ v < t.left.length ∧ (t.feature.getD p 0 = 0 ∨ t.feature.getD p 0 = 1) := by
  rcases hw.children p hp with ⟨h1, h2⟩ | ⟨a, b, h1, h2, h3, h4, h5, h6, h7⟩
  · rw [h1, h2] at h
    cases side <;> simp at h <;> omega
  · rw [h1, h2] at h
    cases side
    · have : b = v := by simpa using h
      subst this; exact ⟨h5, h6, h7⟩
    · have : a = v := by simpa using h
      subst this; exact ⟨h3, h4, h7⟩

theorem treeNext_iff (r c p v : ℕ) : TreeNext t r c p v ↔ p < t.left.length ∧ ∃ side : Bool,
    (((if t.feature.getD p 0 = 1 then (r : ℚ) else (c : ℚ)) ≤ t.threshold.getD p 0) ↔ side = true) ∧
    (if side then t.left.getD p 0 else t.right.getD p 0) = (v : ℤ) := by
  unfold TreeNext
  refine and_congr_right fun _ => ?_
  by_cases h : ((if t.feature.getD p 0 = 1 then (r : ℚ) else (c : ℚ)) ≤ t.threshold.getD p 0)
  · simp only [h, if_true]
    constructor
    · intro h'; exact ⟨true, by simpa using h'⟩
    · rintro ⟨side, h1, h2⟩
      have : side = true := h1.1 trivial
      subst this; simpa using h2
  · rw [if_neg h]
    simp only [h]
    constructor
    · intro h'; exact ⟨false, by simpa using h'⟩
    · rintro ⟨side, h1, h2⟩
      have : side = false := by cases side <;> simp_all
      subst this; simpa using h2

theorem treeNext_unique : Relator.RightUnique (TreeNext t r c) := by
  intro p a b h1 h2
  unfold TreeNext at h1 h2
  split_ifs at h1 h2 <;> (have := h1.2.symm.trans h2.2; exact_mod_cast this)

theorem reaches_iff (hw : t.WellFormed) {v : ℕ} (hv : v < t.left.length) (h0 : 0 < v) :
    ReflTransGen (TreeNext t r c) 0 v ↔ ReflTransGen (TreeNext t r c) 0 (t.parent v).1 ∧ (t.step (t.parent v)).sat r c := by
  obtain ⟨hp, he⟩ := WellFormed.parent hw hv h0
  obtain ⟨hpv, _, hf⟩ := WellFormed.parent_lt hw hp he
  rw [show t.parent v = ((t.parent v).1, (t.parent v).2) from rfl, step_sat hf]
  constructor
  · intro h
    rcases ReflTransGen.cases_tail h with h | ⟨p, h1, h2⟩
    · omega
    · obtain ⟨hp', side, hs, he'⟩ := (treeNext_iff r c p v).1 h2
      obtain ⟨q, _, hu⟩ := hw.parents v hv h0
      have e1 := hu (p, side) ⟨hp', he'⟩
      have e2 := hu ((t.parent v).1, (t.parent v).2) ⟨hp, he⟩
      have e : (p, side) = ((t.parent v).1, (t.parent v).2) := e1.trans e2.symm
      injection e with e1 e2
      rw [← e1, ← e2]
      exact ⟨h1, hs⟩
  · rintro ⟨h1, h2⟩
    exact h1.tail ((treeNext_iff r c _ v).2 ⟨hp, _, h2, he⟩)

theorem mask_lineage (hw : t.WellFormed) (v : ℕ) : ∀ f, v < t.left.length → 0 < v → v ≤ f →
    (cartMask (t.lineage f v) r c = true ↔ ReflTransGen (TreeNext t r c) 0 v) := by
  induction v using Nat.strong_induction_on with
  | _ v ih =>
    intro f hv h0 hf
    obtain ⟨f, rfl⟩ : ∃ g, f = g + 1 := ⟨f - 1, by omega⟩
    obtain ⟨hp, he⟩ := WellFormed.parent hw hv h0
    obtain ⟨hpv, _, _⟩ := WellFormed.parent_lt hw hp he
    rw [reaches_iff hw hv h0]
    simp only [CartTree.lineage]
    by_cases hz : (t.parent v).1 = 0
    · rw [if_pos hz, hz, cartMask_iff]
      simp [ReflTransGen.refl]
    · rw [if_neg hz, ← ih _ hpv f hp (by omega) (by omega), cartMask_iff, cartMask_iff]
      constructor
      · intro h
        exact ⟨fun s hs => h s (List.mem_append_left _ hs), h _ (by simp)⟩
      · rintro ⟨h1, h2⟩ s hs
        rcases List.mem_append.1 hs with hs | hs
        · exact h1 s hs
        · rw [List.mem_singleton.1 hs]; exact h2

theorem exists_leaf (hw : t.WellFormed) (r c : ℕ) : ∃ l, LeafAt t r c l := by
  have key : ∀ d p, t.left.length - p ≤ d → p < t.left.length → ReflTransGen (TreeNext t r c) 0 p → ∃ l, LeafAt t r c l := by
    intro d
    induction d with
    | zero => intro p h1 h2; omega
    | succ d ih =>
      intro p hd hp hr
      rcases hw.children p hp with ⟨h1, _⟩ | ⟨a, b, h1, h2, h3, h4, h5, h6, _⟩
      · exact ⟨p, hr, hp, h1⟩
      · by_cases hc : ((if t.feature.getD p 0 = 1 then (r : ℚ) else (c : ℚ)) ≤ t.threshold.getD p 0)
        · exact ih a (by omega) h4 (hr.tail (by rw [TreeNext, if_pos hc]; exact ⟨hp, h1⟩))
        · exact ih b (by omega) h6 (hr.tail (by rw [TreeNext, if_neg hc]; exact ⟨hp, h2⟩))
  exact key t.left.length 0 (by omega) hw.root.1 ReflTransGen.refl

theorem leaf_unique (hw : t.WellFormed) {a b : ℕ} (ha : LeafAt t r c a) (hb : LeafAt t r c b) : a = b := by
  have stay : ∀ {x y : ℕ}, LeafAt t r c x → ReflTransGen (TreeNext t r c) x y → x = y := by
    intro x y hx h
    rcases ReflTransGen.cases_head h with h | ⟨z, h1, _⟩
    · exact h
    · exfalso
      obtain ⟨hp, side, _, he⟩ := (treeNext_iff r c x z).1 h1
      rcases hw.children x hp with ⟨h3, h4⟩ | ⟨a, b, h3, _⟩
      · rw [h3, h4] at he; cases side <;> simp at he <;> omega
      · rw [hx.2.2] at h3; omega
  rcases ReflTransGen.total_of_right_unique treeNext_unique ha.1 hb.1 with h | h
  · exact stay ha h
  · exact (stay hb h).symm

theorem mem_leaves {l : ℕ} : l ∈ t.leaves ↔ l < t.left.length ∧ t.left.getD l 0 = -1 := by
  simp [CartTree.leaves]

theorem leaf_pos (hw : t.WellFormed) {l : ℕ} (h : l ∈ t.leaves) : 0 < l := by
  rcases Nat.eq_zero_or_pos l with rfl | h0
  · exact absurd (mem_leaves.1 h).2 hw.root.2
  · exact h0

/-- Entry `i` of the matrix: the cell arrives at the `i`-th leaf. -/
theorem matrix_iff (hw : t.WellFormed) (init : ℕ → ℕ → ℕ) {i : ℕ} :
    t.matrix init r c = i ↔ ∃ h : i < t.leaves.length, LeafAt t r c t.leaves[i] := by
  have mask : ∀ i (h : i < t.leaves.length), cartMask (t.lineage t.left.length t.leaves[i]) r c = true ↔ LeafAt t r c t.leaves[i] := by
    intro i h
    have hm := List.getElem_mem h
    have h2 := mem_leaves.1 hm
    rw [mask_lineage hw _ _ h2.1 (leaf_pos hw hm) (by omega)]
    exact ⟨fun hr => ⟨hr, h2⟩, fun hr => hr.1⟩
  obtain ⟨l, hl⟩ := exists_leaf hw r c
  have hlm : l ∈ t.leaves := mem_leaves.2 hl.2
  obtain ⟨k, hk, rfl⟩ := List.getElem_of_mem hlm
  have hnd : t.leaves.Nodup := List.nodup_range.filter _
  have e : t.matrix init r c = k := by
    have := foldl_unique (fun q => cartMask q r c) (fun i => i) t.rectangles 0 (init r c) k (by simpa [CartTree.rectangles] using hk)
      (by simp only [CartTree.rectangles, List.getElem_map]; exact (mask k hk).2 hl)
      (by
        intro j hj hne
        simp only [CartTree.rectangles, List.getElem_map]
        rw [← Bool.not_eq_true]
        have hj' : j < t.leaves.length := by simpa [CartTree.rectangles] using hj
        rw [mask j hj']
        intro h
        exact hne ((hnd.getElem_inj_iff).1 (leaf_unique hw h hl)))
    rw [Nat.zero_add] at this
    exact this
  rw [e]
  constructor
  · rintro rfl; exact ⟨hk, hl⟩
  · rintro ⟨h, hi⟩
    exact (hnd.getElem_inj_iff).1 (leaf_unique hw hl hi)

theorem matrix_eq_iff (hw : t.WellFormed) (init : ℕ → ℕ → ℕ) {r c r' c' : ℕ} :
    t.matrix init r c = t.matrix init r' c' ↔ SameLeaf t r c r' c' := by
  constructor
  · intro h
    obtain ⟨h1, h2⟩ := (matrix_iff hw init).1 h
    obtain ⟨h3, h4⟩ := (matrix_iff hw init).1 (rfl : t.matrix init r' c' = _)
    exact ⟨_, h2, h4⟩
  · rintro ⟨l, h1, h2⟩
    obtain ⟨k, hk, rfl⟩ := List.getElem_of_mem (mem_leaves.2 h1.2)
    rw [(matrix_iff hw init).2 ⟨hk, h1⟩, (matrix_iff hw init).2 ⟨hk, h2⟩]

/-- Equal entries of the matrix form a product of two convex sets. -/
structure Boxy (A : ℕ → ℕ → ℕ) : Prop where
  product : ∀ r c r' c', A r c = A r' c' → A r c' = A r c
  rows : ∀ r r' r'' c, r ≤ r' → r' ≤ r'' → A r c = A r'' c → A r' c = A r c
  cols : ∀ c c' c'' r, c ≤ c' → c' ≤ c'' → A r c = A r c'' → A r c' = A r c

theorem ok_convex {s : CartStep} {a b d : ℕ} (h1 : a ≤ b) (h2 : b ≤ d) (ha : s.ok a = true) (hd : s.ok d = true) : s.ok b = true := by
  have h1' : (a : ℚ) ≤ b := by exact_mod_cast h1
  have h2' : (b : ℚ) ≤ d := by exact_mod_cast h2
  unfold CartStep.ok at *
  split_ifs at *
  · simp only [decide_eq_true_eq] at *; linarith
  · simp only [decide_eq_true_eq] at *; linarith

theorem matrix_boxy (hw : t.WellFormed) (init : ℕ → ℕ → ℕ) : Boxy (t.matrix init) := by
  have mask : ∀ r c i, t.matrix init r c = i ↔ ∃ h : i < t.leaves.length, ∀ s ∈ t.lineage t.left.length t.leaves[i], s.sat r c := by
    intro r c i
    rw [matrix_iff hw]
    refine exists_congr fun h => ?_
    have hm := List.getElem_mem h
    have h2 := mem_leaves.1 hm
    rw [← cartMask_iff, mask_lineage hw _ _ h2.1 (leaf_pos hw hm) (by omega)]
    exact ⟨fun hr => hr.1, fun hr => ⟨hr, h2⟩⟩
  refine ⟨?_, ?_, ?_⟩
  · intro r c r' c' h
    obtain ⟨h1, h2⟩ := (mask r c _).1 rfl
    obtain ⟨_, h4⟩ := (mask r' c' _).1 h.symm
    refine (mask r c' _).2 ⟨h1, fun s hs => ?_⟩
    have a1 := h2 s hs
    have a2 := h4 s hs
    unfold CartStep.sat at *
    split_ifs at * <;> assumption
  · intro r r' r'' c hr hr' h
    obtain ⟨h1, h2⟩ := (mask r c _).1 rfl
    obtain ⟨_, h4⟩ := (mask r'' c _).1 h.symm
    refine (mask r' c _).2 ⟨h1, fun s hs => ?_⟩
    have a1 := h2 s hs
    have a2 := h4 s hs
    unfold CartStep.sat at *
    split_ifs at *
    · assumption
    · exact ok_convex hr hr' a1 a2
  · intro c c' c'' r hr hr' h
    obtain ⟨h1, h2⟩ := (mask r c _).1 rfl
    obtain ⟨_, h4⟩ := (mask r c'' _).1 h.symm
    refine (mask r c' _).2 ⟨h1, fun s hs => ?_⟩
    have a1 := h2 s hs
    have a2 := h4 s hs
    unfold CartStep.sat at *
    split_ifs at *
    · exact ok_convex hr hr' a1 a2
    · assumption

end OptBinning
