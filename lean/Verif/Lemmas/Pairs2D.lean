import Verif.Lemmas.Geo2D
import Mathlib.Data.List.Dedup

/-!
# Pairs of neighbouring bins, along the rows and columns of the matrix of bins
-/
namespace OptBinning

open Spec

/-- `x` is followed by `y` in `l`. -/
def Adj (l : List ℕ) (x y : ℕ) : Prop := ∃ c : ℕ, l[c]? = some x ∧ l[c + 1]? = some y

theorem mem_zip_adj (l : List ℕ) (x y : ℕ) : (x, y) ∈ l.dropLast.zip l.tail ↔ Adj l x y := by
  rw [List.mem_iff_getElem?]
  refine exists_congr fun c => ?_
  rw [List.getElem?_zip_eq_some]
  simp only [List.getElem?_dropLast, List.getElem?_tail]
  constructor
  · rintro ⟨h1, h2⟩
    split at h1
    · exact ⟨h1, h2⟩
    · cases h1
  · rintro ⟨h1, h2⟩
    have : c + 1 < l.length := by
      by_contra h
      rw [List.getElem?_eq_none (by omega)] at h2
      cases h2
    rw [if_pos (by omega)]
    exact ⟨h1, h2⟩

theorem adj_snoc (l : List ℕ) (a x y : ℕ) : Adj (l ++ [a]) x y ↔ Adj l x y ∨ (l.getLast? = some x ∧ y = a) := by
  constructor
  · rintro ⟨c, h1, h2⟩
    rcases Nat.lt_or_ge (c + 1) l.length with h | h
    · rw [List.getElem?_append_left (by omega)] at h1 h2
      exact Or.inl ⟨c, h1, h2⟩
    · rw [List.getElem?_append_right h] at h2
      have he : c + 1 = l.length := by
        by_contra hne
        rw [List.getElem?_eq_none (by simp; omega)] at h2
        cases h2
      rw [List.getElem?_append_left (by omega)] at h1
      right
      constructor
      · rw [List.getLast?_eq_getElem?, ← he]; simpa using h1
      · rw [he, Nat.sub_self] at h2
        simpa using h2.symm
  · rintro (⟨c, h1, h2⟩ | ⟨h1, rfl⟩)
    · have : c + 1 < l.length := by
        by_contra h
        rw [List.getElem?_eq_none (by omega)] at h2
        cases h2
      exact ⟨c, by rw [List.getElem?_append_left (by omega)]; exact h1, by rw [List.getElem?_append_left (by omega)]; exact h2⟩
    · have hpos : 0 < l.length := by
        rcases l with _ | ⟨b, l⟩
        · simp at h1
        · simp
      refine ⟨l.length - 1, ?_, ?_⟩
      · rw [List.getElem?_append_left (by omega), ← List.getLast?_eq_getElem?]; exact h1
      · rw [List.getElem?_append_right (by omega)]
        have : l.length - 1 + 1 - l.length = 0 := by omega
        rw [this]; rfl

theorem fromKeys_snoc (l : List ℕ) (a : ℕ) :
    fromKeys (l ++ [a]) = if a ∈ fromKeys l then fromKeys l else fromKeys l ++ [a] := by
  unfold fromKeys; rw [List.foldl_append]; rfl

/-- Adding new elements at the end: membership. -/
theorem mem_addNew {γ δ : Type} {inst : ∀ (a : γ) (s : List γ), Decidable (a ∈ s)} (g : δ → γ) (l : List δ) (s : List γ) (a : γ) :
    a ∈ l.foldl (fun acc b => if g b ∈ acc then acc else acc ++ [g b]) s ↔ a ∈ s ∨ ∃ b ∈ l, a = g b := by
  induction l generalizing s with
  | nil => simp
  | cons b l ih =>
    rw [List.foldl_cons, ih]
    by_cases h : g b ∈ s
    · rw [if_pos h]
      constructor
      · rintro (h' | ⟨b', hb', e⟩)
        · exact Or.inl h'
        · exact Or.inr ⟨b', List.mem_cons_of_mem _ hb', e⟩
      · rintro (h' | ⟨b', hb', e⟩)
        · exact Or.inl h'
        · rcases List.mem_cons.1 hb' with rfl | hb'
          · left; rw [e]; exact h
          · exact Or.inr ⟨b', hb', e⟩
    · rw [if_neg h]
      simp only [List.mem_append, List.mem_cons, exists_eq_or_imp, or_assoc, List.not_mem_nil, false_or]

theorem nodup_addNew {γ δ : Type} {inst : ∀ (a : γ) (s : List γ), Decidable (a ∈ s)} (g : δ → γ) (l : List δ) (s : List γ) (hs : s.Nodup) :
    (l.foldl (fun acc b => if g b ∈ acc then acc else acc ++ [g b]) s).Nodup := by
  induction l generalizing s with
  | nil => exact hs
  | cons b l ih =>
    rw [List.foldl_cons]
    apply ih
    by_cases h : g b ∈ s
    · rw [if_pos h]; exact hs
    · rw [if_neg h]
      rw [List.nodup_append]
      refine ⟨hs, by simp, ?_⟩
      intro a ha b' hb'
      rw [List.mem_singleton] at hb'
      rintro rfl
      exact h (hb' ▸ ha)

theorem mem_fromKeys (l : List ℕ) (a : ℕ) : a ∈ fromKeys l ↔ a ∈ l := by
  refine (mem_addNew (fun b : ℕ => b) l [] a).trans ?_
  simp

/-- Along a line on which equal values are contiguous, the distinct values in order of appearance are followed by each other
exactly where the line changes value. -/
theorem fromKeys_line (g : ℕ → ℕ) (n : ℕ) (hc : ∀ a b c, a ≤ b → b ≤ c → c < n → g a = g c → g b = g a) :
    (0 < n → (fromKeys ((List.range n).map g)).getLast? = some (g (n - 1))) ∧
    ∀ x y, Adj (fromKeys ((List.range n).map g)) x y ↔ ∃ c, c + 1 < n ∧ g c = x ∧ g (c + 1) = y ∧ x ≠ y := by
  induction n with
  | zero =>
    refine ⟨fun h => absurd h (by omega), fun x y => ?_⟩
    constructor
    · rintro ⟨c, h, _⟩; simp [fromKeys] at h
    · rintro ⟨c, h, _⟩; omega
  | succ n ih =>
    obtain ⟨ih1, ih2⟩ := ih fun a b c h1 h2 h3 => hc a b c h1 h2 (by omega)
    rw [List.range_succ, List.map_append, List.map_singleton, fromKeys_snoc]
    by_cases hm : g n ∈ fromKeys ((List.range n).map g)
    · rw [if_pos hm]
      rw [mem_fromKeys, List.mem_map] at hm
      obtain ⟨c, hcn, he⟩ := hm
      rw [List.mem_range] at hcn
      have e1 : g (n - 1) = g c := hc c (n - 1) n (by omega) (by omega) (by omega) he
      refine ⟨fun _ => by rw [ih1 (by omega), e1, he]; rfl, fun x y => ?_⟩
      rw [ih2]
      constructor
      · rintro ⟨k, h1, h2⟩; exact ⟨k, by omega, h2⟩
      · rintro ⟨k, h1, h2, h3, h4⟩
        refine ⟨k, ?_, h2, h3, h4⟩
        by_contra hk
        have : k = n - 1 := by omega
        subst this
        apply h4
        rw [← h2, ← h3, e1, he]
        congr 1; omega
    · rw [if_neg hm]
      refine ⟨fun _ => by simp, fun x y => ?_⟩
      rw [adj_snoc, ih2]
      rcases Nat.eq_zero_or_pos n with rfl | hn
      · constructor
        · rintro (⟨k, h, _⟩ | ⟨h, _⟩)
          · omega
          · simp [fromKeys] at h
        · rintro ⟨k, h, _⟩; omega
      rw [ih1 hn]
      constructor
      · rintro (⟨k, h1, h2⟩ | ⟨h1, rfl⟩)
        · exact ⟨k, by omega, h2⟩
        · injection h1 with h1
          refine ⟨n - 1, by omega, h1, by congr 1; omega, ?_⟩
          rintro rfl
          apply hm
          rw [mem_fromKeys, List.mem_map]
          exact ⟨n - 1, List.mem_range.2 (by omega), h1⟩
      · rintro ⟨k, h1, h2, h3, h4⟩
        rcases Nat.lt_or_ge (k + 1) n with h | h
        · exact Or.inl ⟨k, h, h2, h3, h4⟩
        · have : k = n - 1 := by omega
          subst this
          have e : n - 1 + 1 = n := by omega
          rw [e] at h3
          exact Or.inr ⟨by rw [h2], h3.symm⟩

theorem mem_pathsOf (k : ℕ) (line : ℕ → List ℕ) (path : List ℕ) :
    path ∈ pathsOf k line ↔ ∃ i < k, path = fromKeys (line i) := by
  refine (mem_addNew (fun i => fromKeys (line i)) (List.range k) [] path).trans ?_
  simp [List.mem_range]

theorem pairLE_trans (a b c : ℕ × ℕ) (h1 : pairLE a b = true) (h2 : pairLE b c = true) : pairLE a c = true := by
  simp only [pairLE, decide_eq_true_eq] at *
  omega

theorem pairLE_total (a b : ℕ × ℕ) : (pairLE a b || pairLE b a) = true := by
  simp only [pairLE, Bool.or_eq_true, decide_eq_true_eq]
  omega

theorem mem_addAll (paths : List (List ℕ)) (s : List (ℕ × ℕ)) (t : ℕ × ℕ) :
    t ∈ paths.foldl (fun (s : List (ℕ × ℕ)) (path : List ℕ) =>
      (path.dropLast.zip path.tail).foldl (fun s t => if t ∈ s then s else s ++ [t]) s) s ↔
    t ∈ s ∨ ∃ path ∈ paths, Adj path t.1 t.2 := by
  induction paths generalizing s with
  | nil => simp
  | cons p ps ih =>
    rw [List.foldl_cons, ih, mem_addNew (fun t : ℕ × ℕ => t)]
    simp only [List.mem_cons, exists_eq_or_imp, or_assoc, exists_eq_right']
    rw [← mem_zip_adj]

theorem nodup_addAll (paths : List (List ℕ)) (s : List (ℕ × ℕ)) (hs : s.Nodup) :
    (paths.foldl (fun (s : List (ℕ × ℕ)) (path : List ℕ) =>
      (path.dropLast.zip path.tail).foldl (fun s t => if t ∈ s then s else s ++ [t]) s) s).Nodup := by
  induction paths generalizing s with
  | nil => exact hs
  | cons p ps ih =>
    rw [List.foldl_cons]
    exact ih _ (nodup_addNew (fun t : ℕ × ℕ => t) _ _ hs)

theorem mem_getPairs (px py : List (List ℕ)) (t : ℕ × ℕ) :
    t ∈ getPairs px py ↔ (∃ path ∈ px, Adj path t.1 t.2) ∨ ∃ path ∈ py, Adj path t.1 t.2 := by
  unfold getPairs
  rw [List.mem_mergeSort, mem_addAll, mem_addAll]
  simp

theorem nodup_getPairs (px py : List (List ℕ)) : (getPairs px py).Nodup := by
  unfold getPairs
  exact (List.mergeSort_perm _ _).nodup_iff.2 (nodup_addAll _ _ (nodup_addAll _ _ List.nodup_nil))

theorem sorted_getPairs (px py : List (List ℕ)) :
    (getPairs px py).Pairwise fun a b => a.1 < b.1 ∨ (a.1 = b.1 ∧ a.2 < b.2) := by
  have h1 : (getPairs px py).Pairwise fun a b => pairLE a b = true := by
    unfold getPairs
    exact List.pairwise_mergeSort pairLE_trans pairLE_total _
  have h2 := (nodup_getPairs px py)
  refine (h1.and h2).imp ?_
  rintro a b ⟨h, hne⟩
  simp only [pairLE, decide_eq_true_eq] at h
  rcases h with h | ⟨h, h'⟩
  · exact Or.inl h
  · right
    refine ⟨h, lt_of_le_of_ne h' fun e => hne ?_⟩
    exact Prod.ext h e

section

variable {α β τ : Type} [DecidableEq α] [DecidableEq β]
variable {p : Prepared2D α β τ} {ax : Axis α} {ay : Axis β} {boxes : List Box2} {sel : List Rect}

theorem covers_cell {m n : ℕ} (h : Covers m n sel) (init : ℕ → ℕ) {r c i : ℕ} (hr : r < m) (hc : c < n) (hi : i < sel.length) :
    pMatrix n init sel (r * n + c) = i ↔ sel[i].block.Mem r c := by
  have hp : r * n + c < m * n := by nlinarith
  rw [h.pMatrix init hp hi]
  have e1 : (r * n + c) / n = r := by
    rw [Nat.mul_comm, Nat.mul_add_div (by omega), Nat.div_eq_of_lt hc]; rfl
  have e2 : (r * n + c) % n = c := by
    rw [Nat.mul_comm, Nat.mul_add_mod, Nat.mod_eq_of_lt hc]
  rw [e1, e2]

theorem covers_cell_lt {m n : ℕ} (h : Covers m n sel) (init : ℕ → ℕ) {r c : ℕ} (hr : r < m) (hc : c < n) :
    ∃ hi : pMatrix n init sel (r * n + c) < sel.length, sel[pMatrix n init sel (r * n + c)].block.Mem r c := by
  obtain ⟨i, hi, hm, _⟩ := h.exists_unique hr hc
  have e := (covers_cell h init hr hc hi).2 hm
  subst e
  exact ⟨hi, hm⟩

/-- The pairs are the pairs of neighbouring blocks. -/
theorem covers_pairs {m n : ℕ} (h : Covers m n sel) (init : ℕ → ℕ) (a b : ℕ) :
    (a, b) ∈ getPairs (getPaths m n (pMatrix n init sel)).1 (getPaths m n (pMatrix n init sel)).2 ↔
    ∃ (ha : a < sel.length) (hb : b < sel.length), NextInX sel[a].block sel[b].block ∨ NextInY sel[a].block sel[b].block := by
  have hx : ∀ r < m, ∀ a b, Adj (fromKeys ((List.range n).map fun c => pMatrix n init sel (r * n + c))) a b ↔
      ∃ c, c + 1 < n ∧ pMatrix n init sel (r * n + c) = a ∧ pMatrix n init sel (r * n + (c + 1)) = b ∧ a ≠ b := by
    intro r hr
    refine (fromKeys_line (fun c => pMatrix n init sel (r * n + c)) n ?_).2
    intro c1 c2 c3 h1 h2 h3 he
    obtain ⟨hi, hm⟩ := covers_cell_lt h init hr (show c1 < n by omega)
    refine (covers_cell h init hr (by omega) hi).2 ?_
    have := (covers_cell h init hr h3 hi).1 he.symm
    unfold Block.Mem at *
    omega
  have hy : ∀ c < n, ∀ a b, Adj (fromKeys ((List.range m).map fun r => pMatrix n init sel (r * n + c))) a b ↔
      ∃ r, r + 1 < m ∧ pMatrix n init sel (r * n + c) = a ∧ pMatrix n init sel ((r + 1) * n + c) = b ∧ a ≠ b := by
    intro c hc
    refine (fromKeys_line (fun r => pMatrix n init sel (r * n + c)) m ?_).2
    intro r1 r2 r3 h1 h2 h3 he
    obtain ⟨hi, hm⟩ := covers_cell_lt h init (show r1 < m by omega) hc
    refine (covers_cell h init (by omega) hc hi).2 ?_
    have := (covers_cell h init h3 hc hi).1 he.symm
    unfold Block.Mem at *
    omega
  rw [mem_getPairs]
  simp only [getPaths, mem_pathsOf]
  constructor
  · rintro (⟨path, ⟨r, hr, rfl⟩, hp⟩ | ⟨path, ⟨c, hc, rfl⟩, hp⟩)
    · obtain ⟨c, h1, rfl, rfl, hne⟩ := (hx r hr a b).1 hp
      obtain ⟨ha, ma⟩ := covers_cell_lt h init hr (show c < n by omega)
      obtain ⟨hb, mb⟩ := covers_cell_lt h init hr h1
      have m1 : ¬ sel[pMatrix n init sel (r * n + c)].block.Mem r (c + 1) := fun hm => hne ((covers_cell h init hr h1 ha).2 hm).symm
      have m2 : ¬ sel[pMatrix n init sel (r * n + (c + 1))].block.Mem r c := fun hm =>
        hne ((covers_cell h init hr (by omega) hb).2 hm)
      refine ⟨ha, hb, Or.inl ?_⟩
      unfold Block.Mem at *
      exact ⟨by omega, r, by omega⟩
    · obtain ⟨r, h1, rfl, rfl, hne⟩ := (hy c hc a b).1 hp
      obtain ⟨ha, ma⟩ := covers_cell_lt h init (show r < m by omega) hc
      obtain ⟨hb, mb⟩ := covers_cell_lt h init h1 hc
      have m1 : ¬ sel[pMatrix n init sel (r * n + c)].block.Mem (r + 1) c := fun hm => hne ((covers_cell h init h1 hc ha).2 hm).symm
      have m2 : ¬ sel[pMatrix n init sel ((r + 1) * n + c)].block.Mem r c := fun hm =>
        hne ((covers_cell h init (by omega) hc hb).2 hm)
      refine ⟨ha, hb, Or.inr ?_⟩
      unfold Block.Mem at *
      exact ⟨by omega, c, by omega⟩
  · rintro ⟨ha, hb, hn⟩
    have ia := allRects_inside (h.rects _ (List.getElem_mem ha))
    have ib := allRects_inside (h.rects _ (List.getElem_mem hb))
    rcases hn with hn | hn
    · left
      obtain ⟨hn, r, hr1, hr2, hr3, hr4⟩ := hn
      unfold Block.Inside at ia ib
      have hr : max sel[a].block.top sel[b].block.top < m := by omega
      refine ⟨_, ⟨max sel[a].block.top sel[b].block.top, hr, rfl⟩, ?_⟩
      refine (hx _ hr a b).2 ⟨sel[a].block.right - 1, by omega, ?_, ?_, ?_⟩
      · refine (covers_cell h init hr (by omega) ha).2 ?_
        unfold Block.Mem; omega
      · refine (covers_cell h init hr (by omega) hb).2 ?_
        unfold Block.Mem; omega
      · rintro rfl; omega
    · right
      obtain ⟨hn, c, hc1, hc2, hc3, hc4⟩ := hn
      unfold Block.Inside at ia ib
      have hr : max sel[a].block.left sel[b].block.left < n := by omega
      refine ⟨_, ⟨max sel[a].block.left sel[b].block.left, hr, rfl⟩, ?_⟩
      refine (hy _ hr a b).2 ⟨sel[a].block.bottom - 1, by omega, ?_, ?_, ?_⟩
      · refine (covers_cell h init (by omega) hr ha).2 ?_
        unfold Block.Mem; omega
      · refine (covers_cell h init (by omega) hr hb).2 ?_
        unfold Block.Mem; omega
      · rintro rfl; omega

theorem Geo.pairs (g : Geo p ax ay boxes sel) (hw : p.WellFormed) (init : ℕ → ℕ) (a b : ℕ) :
    (a, b) ∈ getPairs (getPaths p.m p.n (pMatrix p.n init sel)).1 (getPaths p.m p.n (pMatrix p.n init sel)).2 ↔
    ∃ (ha : a < boxes.length) (hb : b < boxes.length), BoxNextX boxes[a] boxes[b] ∨ BoxNextY boxes[a] boxes[b] := by
  rw [covers_pairs g.covers init]
  have hl := g.length
  constructor
  · rintro ⟨ha, hb, h⟩
    have hn := g.next_iff hw (i := a) (k := b) (by omega) (by omega) ha hb
    exact ⟨by omega, by omega, h.imp hn.1.2 hn.2.2⟩
  · rintro ⟨ha, hb, h⟩
    have hn := g.next_iff hw ha hb (by omega) (by omega)
    exact ⟨by omega, by omega, h.imp hn.1.1 hn.2.1⟩

end

end OptBinning
