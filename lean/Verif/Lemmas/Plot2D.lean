import Verif.Lemmas.Pairs2D
import Verif.Model.Table2D

/-!
# The step lines drawn from the matrix of bins
-/
namespace OptBinning
open Spec

theorem nodup_fromKeys (l : List ℕ) : (fromKeys l).Nodup := nodup_addNew (fun b : ℕ => b) l [] List.nodup_nil

/-- Repeating each distinct value of a line as often as it occurs gives the line, if equal values are contiguous. -/
theorem flatMap_fromKeys {γ : Type} (mv : ℕ → γ) (g : ℕ → ℕ) (n : ℕ) (hc : ∀ a b c, a ≤ b → b ≤ c → c < n → g a = g c → g b = g a) :
    (fromKeys ((List.range n).map g)).flatMap (fun p => List.replicate (((List.range n).map g).count p) (mv p)) =
      (List.range n).map fun c => mv (g c) := by
  induction n with
  | zero => rfl
  | succ n ih =>
    have hc' : ∀ a b c, a ≤ b → b ≤ c → c < n → g a = g c → g b = g a := fun a b c h1 h2 h3 => hc a b c h1 h2 (by omega)
    have ih := ih hc'
    have hlast := (fromKeys_line g n hc').1
    set l := (List.range n).map g with hl
    have e : (List.range (n + 1)).map g = l ++ [g n] := by rw [List.range_succ, List.map_append, List.map_singleton]
    have e2 : (List.range (n + 1)).map (fun c => mv (g c)) = (List.range n).map (fun c => mv (g c)) ++ [mv (g n)] := by
      rw [List.range_succ, List.map_append, List.map_singleton]
    rw [e, e2, ← ih, fromKeys_snoc]
    have hother : ∀ k : List ℕ, g n ∉ k → k.flatMap (fun p => List.replicate ((l ++ [g n]).count p) (mv p)) =
        k.flatMap (fun p => List.replicate (l.count p) (mv p)) := by
      intro k hk
      refine List.flatMap_congr fun p hp => ?_
      have : p ≠ g n := fun h => hk (h ▸ hp)
      rw [List.count_append, List.count_singleton, if_neg (by simpa using fun h => this h.symm)]
      rfl
    by_cases hm : g n ∈ fromKeys l
    · rw [if_pos hm]
      have hmem := (mem_fromKeys l _).1 hm
      obtain ⟨c, hcn, he⟩ := List.mem_map.1 hmem
      rw [List.mem_range] at hcn
      have hn : 0 < n := by omega
      have e1 : g (n - 1) = g n := by
        rw [hc c (n - 1) n (by omega) (by omega) (by omega) he, he]
      have hla := hlast hn
      rw [e1] at hla
      obtain ⟨k, hk⟩ : ∃ k, fromKeys l = k ++ [g n] := by
        rw [List.getLast?_eq_some_iff] at hla
        exact hla
      have hnd := nodup_fromKeys l
      rw [hk] at hnd ⊢
      have hnot : g n ∉ k := by
        rw [List.nodup_append] at hnd
        exact fun h => hnd.2.2 _ h _ (List.mem_singleton.2 rfl) rfl
      rw [List.flatMap_append, List.flatMap_append, hother k hnot, List.append_assoc]
      congr 1
      simp only [List.flatMap_cons, List.flatMap_nil, List.append_nil, List.count_append]
      rw [List.count_singleton, if_pos (by simp), List.replicate_succ']
    · rw [if_neg hm]
      rw [List.flatMap_append, hother _ hm]
      congr 1
      have h0 : l.count (g n) = 0 := List.count_eq_zero.2 fun h => hm ((mem_fromKeys l _).2 h)
      simp [h0]

theorem le_foldr_max (l : List ℕ) (a : ℕ) (h : a ∈ l) : a ≤ l.foldr max 0 := by
  induction l with
  | nil => cases h
  | cons b l ih =>
    rcases List.mem_cons.1 h with rfl | h
    · exact le_max_left _ _
    · exact (ih h).trans (le_max_right _ _)

theorem foldr_max_le (l : List ℕ) (b : ℕ) (h : ∀ a ∈ l, a ≤ b) : l.foldr max 0 ≤ b := by
  induction l with
  | nil => exact Nat.zero_le _
  | cons a l ih =>
    rw [List.foldr_cons]
    exact max_le (h a (by simp)) (ih fun a ha => h a (by simp [ha]))

/-- The width of a value is its number of occurrences in any line in which it occurs, if it occurs equally often in all of these. -/
theorem maxWidth_eq {k : ℕ} {line : ℕ → List ℕ} {p i : ℕ} (hi : i < k)
    (h : ∀ j < k, (line j).count p = (line i).count p ∨ (line j).count p = 0) : maxWidth k line p = (line i).count p := by
  unfold maxWidth
  apply le_antisymm
  · refine foldr_max_le _ _ fun a ha => ?_
    obtain ⟨j, hj, rfl⟩ := List.mem_map.1 ha
    rcases h j (List.mem_range.1 hj) with h | h <;> omega
  · exact le_foldr_max _ _ (List.mem_map.2 ⟨i, List.mem_range.2 hi, rfl⟩)

theorem nodup_pathsOf (k : ℕ) (line : ℕ → List ℕ) : (pathsOf k line).Nodup :=
  nodup_addNew (fun i : ℕ => fromKeys (line i)) (List.range k) [] List.nodup_nil

/-- The step line of a line of the matrix. -/
theorem drawStep_line {γ : Type} {k n : ℕ} (hn : 0 < n) (g : ℕ → ℕ → ℕ) (mv : ℕ → γ) {i : ℕ} (hi : i < k)
    (hc : ∀ a b c, a ≤ b → b ≤ c → c < n → g i a = g i c → g i b = g i a)
    (hw : ∀ j < k, ∀ p ∈ (List.range n).map (g i), ((List.range n).map (g j)).count p = ((List.range n).map (g i)).count p ∨
      ((List.range n).map (g j)).count p = 0) :
    drawStep n (stepLine (maxWidth k fun r => (List.range n).map (g r)) mv (fromKeys ((List.range n).map (g i)))) =
      .ok ((List.range n).map (fun c => mv (g i c)) ++ [mv (g i (n - 1))]) := by
  have e : (fromKeys ((List.range n).map (g i))).flatMap
      (fun p => List.replicate (maxWidth k (fun r => (List.range n).map (g r)) p) (mv p)) = (List.range n).map fun c => mv (g i c) := by
    rw [← flatMap_fromKeys mv (g i) n hc]
    refine List.flatMap_congr fun p hp => ?_
    rw [maxWidth_eq hi fun j hj => hw j hj p ((mem_fromKeys _ _).1 hp)]
  have hlast : ((List.range n).map fun c => mv (g i c)).getLast? = some (mv (g i (n - 1))) := by
    rw [List.getLast?_eq_getElem?]
    simp [hn]
  unfold drawStep stepLine
  simp only [e, hlast]
  simp

section
variable {sel : List Rect}

theorem count_congr {n : ℕ} {g g' : ℕ → ℕ} {p : ℕ} (h : ∀ c < n, g c = p ↔ g' c = p) :
    ((List.range n).map g).count p = ((List.range n).map g').count p := by
  unfold List.count
  rw [List.countP_map, List.countP_map]
  refine List.countP_congr fun c hc => ?_
  simpa using h c (List.mem_range.1 hc)

/-- In all rows (columns) of the grid a bin occurs equally often or not at all. -/
theorem count_line {m n : ℕ} (h : Covers m n sel) (init : ℕ → ℕ) :
    (∀ i < m, ∀ j < m, ∀ p ∈ (List.range n).map (fun c => pMatrix n init sel (i * n + c)),
      ((List.range n).map fun c => pMatrix n init sel (j * n + c)).count p =
        ((List.range n).map fun c => pMatrix n init sel (i * n + c)).count p ∨
      ((List.range n).map fun c => pMatrix n init sel (j * n + c)).count p = 0) ∧
    (∀ i < n, ∀ j < n, ∀ p ∈ (List.range m).map (fun r => pMatrix n init sel (r * n + i)),
      ((List.range m).map fun r => pMatrix n init sel (r * n + j)).count p =
        ((List.range m).map fun r => pMatrix n init sel (r * n + i)).count p ∨
      ((List.range m).map fun r => pMatrix n init sel (r * n + j)).count p = 0) := by
  constructor
  · intro i hi j hj p hp
    obtain ⟨c, hc, rfl⟩ := List.mem_map.1 hp
    rw [List.mem_range] at hc
    obtain ⟨hlt, hm⟩ := covers_cell_lt h init hi hc
    by_cases h0 : ((List.range n).map fun c' => pMatrix n init sel (j * n + c')).count (pMatrix n init sel (i * n + c)) = 0
    · exact Or.inr h0
    · obtain ⟨c', hc', he⟩ := List.mem_map.1 (List.count_pos_iff.1 (Nat.pos_of_ne_zero h0))
      rw [List.mem_range] at hc'
      have hm' := (covers_cell h init hj hc' hlt).1 he
      refine Or.inl (count_congr fun d hd => ?_)
      rw [covers_cell h init hj hd hlt, covers_cell h init hi hd hlt]
      simp only [Block.Mem] at hm hm' ⊢
      omega
  · intro i hi j hj p hp
    obtain ⟨c, hc, rfl⟩ := List.mem_map.1 hp
    rw [List.mem_range] at hc
    obtain ⟨hlt, hm⟩ := covers_cell_lt h init hc hi
    by_cases h0 : ((List.range m).map fun c' => pMatrix n init sel (c' * n + j)).count (pMatrix n init sel (c * n + i)) = 0
    · exact Or.inr h0
    · obtain ⟨c', hc', he⟩ := List.mem_map.1 (List.count_pos_iff.1 (Nat.pos_of_ne_zero h0))
      rw [List.mem_range] at hc'
      have hm' := (covers_cell h init hc' hj hlt).1 he
      refine Or.inl (count_congr fun d hd => ?_)
      rw [covers_cell h init hd hj hlt, covers_cell h init hd hi hlt]
      simp only [Block.Mem] at hm hm' ⊢
      omega

/-- The lines drawn for the matrix of a binning into rectangles. -/
theorem plotLines_spec {γ : Type} {m n : ℕ} (h : Covers m n sel) (init : ℕ → ℕ) (hm : 0 < m) (hn : 0 < n) (mv : ℕ → γ) :
    ((∀ i < m, (fromKeys ((List.range n).map fun c => pMatrix n init sel (i * n + c)),
        Except.ok ((List.range n).map (fun c => mv (pMatrix n init sel (i * n + c))) ++ [mv (pMatrix n init sel (i * n + (n - 1)))])) ∈
          (plotLines m n (pMatrix n init sel) mv).1) ∧
      (∀ L ∈ (plotLines m n (pMatrix n init sel) mv).1, ∃ i < m, L = (fromKeys ((List.range n).map fun c => pMatrix n init sel (i * n + c)),
        Except.ok ((List.range n).map (fun c => mv (pMatrix n init sel (i * n + c))) ++ [mv (pMatrix n init sel (i * n + (n - 1)))])))) ∧
    ((∀ i < n, (fromKeys ((List.range m).map fun r => pMatrix n init sel (r * n + i)),
        Except.ok ((List.range m).map (fun r => mv (pMatrix n init sel (r * n + i))) ++ [mv (pMatrix n init sel ((m - 1) * n + i))])) ∈
          (plotLines m n (pMatrix n init sel) mv).2) ∧
      (∀ L ∈ (plotLines m n (pMatrix n init sel) mv).2, ∃ i < n, L = (fromKeys ((List.range m).map fun r => pMatrix n init sel (r * n + i)),
        Except.ok ((List.range m).map (fun r => mv (pMatrix n init sel (r * n + i))) ++ [mv (pMatrix n init sel ((m - 1) * n + i))])))) := by
  have cont1 : ∀ i < m, ∀ a b c, a ≤ b → b ≤ c → c < n → pMatrix n init sel (i * n + a) = pMatrix n init sel (i * n + c) →
      pMatrix n init sel (i * n + b) = pMatrix n init sel (i * n + a) := by
    intro i hi a b c h1 h2 h3 he
    obtain ⟨hlt, hme⟩ := covers_cell_lt h init hi (show a < n by omega)
    refine (covers_cell h init hi (by omega) hlt).2 ?_
    have := (covers_cell h init hi h3 hlt).1 he.symm
    simp only [Block.Mem] at hme this ⊢
    omega
  have cont2 : ∀ i < n, ∀ a b c, a ≤ b → b ≤ c → c < m → pMatrix n init sel (a * n + i) = pMatrix n init sel (c * n + i) →
      pMatrix n init sel (b * n + i) = pMatrix n init sel (a * n + i) := by
    intro i hi a b c h1 h2 h3 he
    obtain ⟨hlt, hme⟩ := covers_cell_lt h init (show a < m by omega) hi
    refine (covers_cell h init (by omega) hi hlt).2 ?_
    have := (covers_cell h init h3 hi hlt).1 he.symm
    simp only [Block.Mem] at hme this ⊢
    omega
  have d1 : ∀ i < m, _ := fun i hi => drawStep_line hn (fun r c => pMatrix n init sel (r * n + c)) mv hi (cont1 i hi)
    (fun j hj p hp => (count_line h init).1 i hi j hj p hp)
  have d2 : ∀ i < n, _ := fun i hi => drawStep_line hm (fun c r => pMatrix n init sel (r * n + c)) mv hi (cont2 i hi)
    (fun j hj p hp => (count_line h init).2 i hi j hj p hp)
  refine ⟨⟨fun i hi => ?_, fun L hL => ?_⟩, ⟨fun i hi => ?_, fun L hL => ?_⟩⟩
  · refine List.mem_map.2 ⟨_, (mem_pathsOf _ _ _).2 ⟨i, hi, rfl⟩, ?_⟩
    exact Prod.ext rfl (d1 i hi)
  · obtain ⟨path, hp, rfl⟩ := List.mem_map.1 hL
    obtain ⟨i, hi, rfl⟩ := (mem_pathsOf _ _ _).1 hp
    exact ⟨i, hi, Prod.ext rfl (d1 i hi)⟩
  · refine List.mem_map.2 ⟨_, (mem_pathsOf _ _ _).2 ⟨i, hi, rfl⟩, ?_⟩
    exact Prod.ext rfl (d2 i hi)
  · obtain ⟨path, hp, rfl⟩ := List.mem_map.1 hL
    obtain ⟨i, hi, rfl⟩ := (mem_pathsOf _ _ _).1 hp
    exact ⟨i, hi, Prod.ext rfl (d2 i hi)⟩

end
end OptBinning
