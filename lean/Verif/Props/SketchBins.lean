import Verif.Props.BSketch

/-! # C26, C40: `bins(splits)` of the numerical sketch -/
namespace OptBinning
open Spec (numLt numLe)
variable {α : Type*} [LinearOrder α]

theorem countP_lt_le_iff : ∀ {l : List α}, l.Pairwise (· ≤ ·) → ∀ {k : ℕ} (hk : k < l.length) (v : α),
    (l.countP (fun s => decide (s < v)) ≤ k ↔ v ≤ l[k]) := by
  intro l
  induction l with
  | nil => intro _ k hk; simp at hk
  | cons a l ih =>
    intro h k hk v
    have hs := (List.pairwise_cons.mp h)
    by_cases hav : a < v
    · rw [List.countP_cons_of_pos (by simpa using hav)]
      cases k with
      | zero => simp [hav]
      | succ k =>
        rw [List.length_cons] at hk
        rw [List.getElem_cons_succ, ← ih hs.2 (by omega) v]; omega
    · rw [List.countP_cons_of_neg (by simpa using hav)]
      have h0 : l.countP (fun s => decide (s < v)) = 0 := by
        rw [List.countP_eq_zero]; intro s hsm
        simp only [decide_eq_true_eq, not_lt]
        exact (not_lt.mp hav).trans (hs.1 s hsm)
      rw [h0]
      refine ⟨fun _ => ?_, fun _ => Nat.zero_le _⟩
      cases k with
      | zero => simpa using hav
      | succ k => rw [List.getElem_cons_succ]; exact (not_lt.mp hav).trans (hs.1 _ (List.getElem_mem _))

omit [LinearOrder α] in
/-- Summing the weights by index. -/
theorem sum_by_index (l : List (Entry α)) (f : Entry α → ℕ) (m : ℕ) :
    ((List.range m).map fun i => ((l.filter fun e => f e == i).map Entry.g).sum).sum =
      (l.map fun e => if f e < m then e.g else 0).sum := by
  induction l with
  | nil => simp
  | cons e l ih =>
    have h1 : ((List.range m).map fun i => (((e :: l).filter fun e => f e == i).map Entry.g).sum) =
        (List.range m).map fun i => (if f e = i then e.g else 0) + ((l.filter fun e => f e == i).map Entry.g).sum := by
      apply List.map_congr_left
      intro i _
      by_cases h : f e = i
      · rw [List.filter_cons_of_pos (by simpa using h)]; simp [h]
      · rw [List.filter_cons_of_neg (by simpa using h)]; simp [h]
    rw [h1, List.sum_map_add, ih, List.map_cons, List.sum_cons]
    congr 1
    clear h1 ih
    induction m with
    | zero => simp
    | succ m ih =>
      rw [List.range_succ, List.map_append, List.sum_append, ih]
      by_cases h : f e < m
      · simp [h, Nat.lt_succ_of_lt h, Nat.ne_of_lt h]
      · by_cases h2 : f e = m
        · simp [h2]
        · have : ¬ f e < m + 1 := by omega
          simp [h, h2, this]

/-- C26: whatever the split points, `bins` distributes exactly the stored weights. -/
theorem bins_sum (k : GK α) (splits : List α) : (k.bins splits).sum = (k.flush.entries.map Entry.g).sum := by
  unfold GK.bins
  rw [sum_by_index k.flush.entries (fun e => splits.countP fun s => decide (s < e.value)) (splits.length + 1)]
  congr 1
  apply List.map_congr_left
  intro e _
  rw [if_pos]
  have : splits.countP (fun s => decide (s < e.value)) ≤ splits.length := List.countP_le_length
  omega

/-- C26: the counts returned by `bins(splits)` of a sketch fed by `add` sum to the number of added values, for all split points. -/
theorem C26_bins_total (eps : ℚ) (heps : 0 < eps) (ops : List (GKOp α)) (splits : List α) :
    ((GK.run eps ops).bins splits).sum = (addedValues ops).length := by
  rw [bins_sum]
  obtain ⟨hD, -⟩ := describes_run eps heps ops
  obtain ⟨hF, hinc⟩ := hD.flush
  obtain ⟨S0, hp, hs⟩ := hF.parts
  rw [hinc, List.append_nil] at hp
  exact (hs.congr hp).total

/-- C26: after merges the counts of `bins(splits)` can only exceed the number of values, by at most `2 eps (n - 1)`. -/
theorem C26_bins_total_merged (eps : ℚ) (heps : 0 < eps) (ops : List (MergeOp α)) (splits : List α) :
    ((collectedValues ops).length : ℤ) ≤ ((GK.runMerge eps ops).bins splits).sum ∧
    ((((GK.runMerge eps ops).bins splits).sum : ℤ) : ℚ) ≤
      (collectedValues ops).length + 2 * eps * (((collectedValues ops).length - 1 : ℕ) : ℚ) := by
  rw [bins_sum]
  obtain ⟨-, -, h1, h2⟩ := C26_merge_counts eps heps ops
  exact ⟨h1, h2⟩

theorem Ranks.le_wLe {S : List α} {A W : ℤ} {ents : List (Entry α)} (h : Ranks S A ents) (hs : Sorted ents) (ht : A + gsum ents = S.length)
    (hw : ∀ e ∈ ents, e.g + e.delta ≤ W) (hW : 1 ≤ W) (v : α) : (numLe S v : ℤ) ≤ A + wLe ents v + (W - 1) := by
  induction ents generalizing A with
  | nil =>
    have : numLe S v ≤ S.length := List.countP_le_length
    simp only [gsum_nil] at ht
    rw [wLe_nil]; omega
  | cons e es ih =>
    obtain ⟨⟨a, b⟩, c⟩ := h
    rw [wLe_cons]
    by_cases h1 : e.value ≤ v
    · rw [if_pos h1]
      have := ih c hs.tail (by rw [gsum_cons] at ht; omega) fun x hx => hw x (List.mem_cons_of_mem _ hx)
      omega
    · rw [if_neg h1]
      push Not at h1
      have h2 : wLe es v = 0 := wLe_zero fun x hx => lt_of_lt_of_le h1 (hs.head_le (List.mem_cons_of_mem _ hx))
      have h3 := numLe_le_numLt S h1
      have h4 := hw e (by simp)
      rw [h2]; omega

/-- C40: for increasing split points, the counts of the bins up to the `k`-th split add up to the number of added values that are at most
this split, up to an error of `2 eps (n - 1)`; they are never too large. -/
theorem C40_bins_accuracy (eps : ℚ) (heps : 0 < eps) (ops : List (GKOp α)) (splits : List α) (hsp : splits.Pairwise (· ≤ ·)) (k : ℕ)
    (hk : k < splits.length) (hne : addedValues ops ≠ []) :
    (((GK.run eps ops).bins splits).take (k + 1)).sum ≤ numLe (addedValues ops) splits[k] ∧
    (numLe (addedValues ops) splits[k] : ℤ) ≤
      (((GK.run eps ops).bins splits).take (k + 1)).sum + 2 * ⌊eps * (((addedValues ops).length : ℚ) - 1)⌋ := by
  obtain ⟨hD, he⟩ := describes_run eps heps ops
  obtain ⟨hF, hinc⟩ := hD.flush
  obtain ⟨S0, hp, hs⟩ := hF.parts
  rw [hinc, List.append_nil] at hp
  have hs := hs.congr hp
  have htake : (((GK.run eps ops).bins splits).take (k + 1)).sum = wLe (GK.run eps ops).flush.entries splits[k] := by
    unfold GK.bins
    rw [← List.map_take, List.take_range, min_eq_left (by omega),
      sum_by_index _ (fun e => splits.countP fun s => decide (s < e.value)) (k + 1)]
    unfold wLe
    congr 1
    apply List.map_congr_left
    intro e _
    have := countP_lt_le_iff hsp hk e.value
    by_cases h : e.value ≤ splits[k]
    · rw [if_pos h, if_pos (by have := this.mpr h; omega)]
    · rw [if_neg h, if_neg (by have := mt this.mp h; omega)]
  have hlen : 0 < (addedValues ops).length := List.length_pos_iff_ne_nil.mpr hne
  have hn1 : (0 : ℚ) ≤ ((addedValues ops).length : ℚ) - 1 := by
    have : (1 : ℚ) ≤ ((addedValues ops).length : ℚ) := by exact_mod_cast hlen
    linarith
  set sp : ℤ := ⌊eps * (((addedValues ops).length : ℚ) - 1)⌋ with hsp'
  have hsp0 : 0 ≤ sp := Int.floor_nonneg.mpr (mul_nonneg heps.le hn1)
  have hW : ∀ e ∈ (GK.run eps ops).flush.entries, e.g + e.delta ≤ 2 * sp + 1 := by
    intro e hem
    have := hF.width e hem
    rw [hF.count, (eps_flush _).1, he, mul_assoc] at this
    exact width_le_spread (mul_nonneg heps.le hn1) this
  rw [htake]
  constructor
  · have := hs.ranks.wLe_le hs.sorted splits[k] (by omega)
    omega
  · have := hs.ranks.le_wLe hs.sorted (by have := hs.total; omega) hW (by omega) splits[k]
    omega

/-- C40 finding: `bins` counts a value that equals a split point in the bin below it, `transform` of the solved sketch puts it in the bin
above it; the split points of the sketch are values of the data (`quantile` returns added values, `C25_quantile`).  Here the split point is
the median of 1, 2, 3: `bins` reports 2 and 1 values, `transform` puts 1 and 2 values into the two bins. -/
theorem C40_boundary_mismatch :
    let k := GK.run (1/10) ([1, 2, 3].map GKOp.add : List (GKOp ℕ))
    (k.quantile (1/2)).toOption.map Prod.snd = some (some 2) ∧ k.bins [2] = [2, 1] ∧
    [1, 2, 3].map (fun v => transformOne (β := ℕ) [2] .none id 7 none none (some v)) = [0, 1, 1] := by
  decide +kernel

/-- Non-vacuity of `C40_bins_accuracy`: nine values, a compressed sketch, two splits; the true counts up to the splits are 3 and 6, the allowed error is 4. -/
example : (GK.run (1/4) ([5, 3, 8, 1, 9, 2, 7, 4, 6].map GKOp.add : List (GKOp ℕ))).bins [3, 6] = [3, 0, 6] := by
  decide +kernel

end OptBinning
