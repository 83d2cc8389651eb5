import Verif.Model.JsMulti
import Verif.Spec.JsMulti
import Verif.Props.MulticlassTable
import Verif.Props.Metrics
import Mathlib.Analysis.SpecialFunctions.Log.NegMulLog
import Mathlib.Analysis.Convex.Jensen

/-! # C109: the divergence of a multiclass table -/
namespace OptBinning

open Spec Finset

section core
variable {ι : Type*} (s : Finset ι) (w : ι → ℝ)

/-- Contribution of a row with the values `p`. -/
noncomputable def jsRow (p : ι → ℝ) : ℝ :=
  (∑ i ∈ s, w i * (p i * Real.log (p i))) - (∑ i ∈ s, w i * p i) * Real.log (∑ i ∈ s, w i * p i)

variable {s w}

theorem jsRow_nonneg (hw : ∀ i ∈ s, 0 ≤ w i) (h1 : ∑ i ∈ s, w i = 1) {p : ι → ℝ} (hp : ∀ i ∈ s, 0 ≤ p i) : 0 ≤ jsRow s w p := by
  have := Real.convexOn_mul_log.map_sum_le (t := s) (w := w) (p := p) hw h1 (fun i hi => Set.mem_Ici.2 (hp i hi))
  simp only [smul_eq_mul] at this
  unfold jsRow
  linarith

theorem jsRow_zero (hw : ∀ i ∈ s, 0 < w i) (h1 : ∑ i ∈ s, w i = 1) {p : ι → ℝ} (hp : ∀ i ∈ s, 0 ≤ p i) :
    jsRow s w p = 0 ↔ ∀ j ∈ s, p j = ∑ i ∈ s, w i * p i := by
  have := Real.strictConvexOn_mul_log.map_sum_eq_iff (t := s) (w := w) (p := p) hw h1 (fun i hi => Set.mem_Ici.2 (hp i hi))
  simp only [smul_eq_mul] at this
  rw [← this, jsRow, sub_eq_zero, eq_comm]

/-- Term `a log (a / b)`. -/
theorem log_sum {a b a' b' : ℝ} (ha : 0 ≤ a) (hb : a ≤ b) (ha' : 0 ≤ a') (hb' : a' ≤ b') :
    (a + a') * (Real.log (a + a') - Real.log (b + b')) ≤ a * (Real.log a - Real.log b) + a' * (Real.log a' - Real.log b') := by
  have key : ∀ {a b s t : ℝ}, 0 ≤ a → a ≤ b → a ≤ s → s ≤ t → a * (Real.log s - Real.log t) + a - s * b / t ≤ a * (Real.log a - Real.log b) := by
    intro a b s t h1 h2 h3 h4
    rcases h1.eq_or_lt with h0 | h0
    · subst h0
      have : 0 ≤ s * b / t := div_nonneg (mul_nonneg h3 h2) (h3.trans h4)
      simpa using this
    · have hb : 0 < b := h0.trans_le h2
      have hs : 0 < s := h0.trans_le h3
      have ht : 0 < t := hs.trans_le h4
      have h5 := Real.log_le_sub_one_of_pos (x := s * b / (t * a)) (by positivity)
      rw [Real.log_div (by positivity) (by positivity), Real.log_mul hs.ne' hb.ne', Real.log_mul ht.ne' h0.ne'] at h5
      have h6 := mul_le_mul_of_nonneg_left h5 h1
      have h7 : a * (s * b / (t * a) - 1) = s * b / t - a := by field_simp
      rw [h7] at h6
      nlinarith [h6]
  have k1 := key (a := a) (b := b) (s := a + a') (t := b + b') ha hb (by linarith) (by linarith)
  have k2 := key (a := a') (b := b') (s := a + a') (t := b + b') ha' hb' (by linarith) (by linarith)
  by_cases ht : b + b' = 0
  · have : a = 0 := by linarith
    have : a' = 0 := by linarith
    subst_vars; simp
  · have : (a + a') * b / (b + b') + (a + a') * b' / (b + b') = a + a' := by field_simp
    nlinarith [k1, k2, this]

/-- The contribution of a row as divergences of the parts of the classes from the sum. -/
theorem jsRow_terms (hw : ∀ i ∈ s, 0 ≤ w i) {p : ι → ℝ} (hp : ∀ i ∈ s, 0 ≤ p i) :
    jsRow s w p = (∑ i ∈ s, w i * p i * (Real.log (w i * p i) - Real.log (∑ j ∈ s, w j * p j))) - ∑ i ∈ s, w i * p i * Real.log (w i) := by
  unfold jsRow
  simp only [mul_sub, Finset.sum_sub_distrib, ← Finset.sum_mul]
  have : ∀ i ∈ s, w i * p i * Real.log (w i * p i) = w i * (p i * Real.log (p i)) + w i * p i * Real.log (w i) := by
    intro i hi
    rcases (hw i hi).eq_or_lt with h | h
    · simp [← h]
    rcases (hp i hi).eq_or_lt with h' | h'
    · simp [← h']
    rw [Real.log_mul h.ne' h'.ne']; ring
  rw [Finset.sum_congr rfl this, Finset.sum_add_distrib]
  ring

theorem part_le (hw : ∀ i ∈ s, 0 ≤ w i) {p : ι → ℝ} (hp : ∀ i ∈ s, 0 ≤ p i) {i : ι} (hi : i ∈ s) : w i * p i ≤ ∑ j ∈ s, w j * p j :=
  Finset.single_le_sum (f := fun j => w j * p j) (fun j hj => mul_nonneg (hw j hj) (hp j hj)) hi

theorem jsRow_le (hw : ∀ i ∈ s, 0 ≤ w i) {p : ι → ℝ} (hp : ∀ i ∈ s, 0 ≤ p i) :
    jsRow s w p ≤ - ∑ i ∈ s, w i * p i * Real.log (w i) := by
  rw [jsRow_terms hw hp]
  have : ∑ i ∈ s, w i * p i * (Real.log (w i * p i) - Real.log (∑ j ∈ s, w j * p j)) ≤ 0 := by
    refine Finset.sum_nonpos fun i hi => ?_
    have h0 := mul_nonneg (hw i hi) (hp i hi)
    rcases h0.eq_or_lt with h | h
    · rw [← h]; simp
    · exact mul_nonpos_of_nonneg_of_nonpos h0 (sub_nonpos.2 (Real.log_le_log h (part_le hw hp hi)))
  linarith

theorem jsRow_max (hw : ∀ i ∈ s, 0 < w i) {p : ι → ℝ} (hp : ∀ i ∈ s, 0 ≤ p i) :
    jsRow s w p = - ∑ i ∈ s, w i * p i * Real.log (w i) ↔ ∀ i ∈ s, ∀ j ∈ s, p i ≠ 0 → p j ≠ 0 → i = j := by
  have hw' : ∀ i ∈ s, 0 ≤ w i := fun i hi => (hw i hi).le
  have hnp : ∀ i ∈ s, w i * p i * (Real.log (w i * p i) - Real.log (∑ j ∈ s, w j * p j)) ≤ 0 := by
    intro i hi
    have h0 := mul_nonneg (hw' i hi) (hp i hi)
    rcases h0.eq_or_lt with h | h
    · rw [← h]; simp
    · exact mul_nonpos_of_nonneg_of_nonpos h0 (sub_nonpos.2 (Real.log_le_log h (part_le hw' hp hi)))
  have e : jsRow s w p = - ∑ i ∈ s, w i * p i * Real.log (w i) ↔
      ∑ i ∈ s, w i * p i * (Real.log (w i * p i) - Real.log (∑ j ∈ s, w j * p j)) = 0 := by
    rw [jsRow_terms hw' hp]; constructor <;> intro h <;> linarith
  rw [e, Finset.sum_eq_zero_iff_of_nonpos hnp]
  constructor
  · intro h i hi j hj h1 h2
    by_contra hne
    have p1 : 0 < w i * p i := mul_pos (hw i hi) (lt_of_le_of_ne (hp i hi) (Ne.symm h1))
    have p2 : 0 < w j * p j := mul_pos (hw j hj) (lt_of_le_of_ne (hp j hj) (Ne.symm h2))
    have h3 := (mul_eq_zero.1 (h i hi)).resolve_left p1.ne'
    have h4 : w i * p i = ∑ j ∈ s, w j * p j :=
      Real.log_injOn_pos (Set.mem_Ioi.2 p1) (Set.mem_Ioi.2 (p1.trans_le (part_le hw' hp hi))) (by linarith)
    have h5 : w i * p i + w j * p j ≤ ∑ j ∈ s, w j * p j :=
      Finset.add_le_sum (f := fun j => w j * p j) (fun k hk => mul_nonneg (hw' k hk) (hp k hk)) hi hj hne
    linarith
  · intro h i hi
    by_cases h1 : p i = 0
    · simp [h1]
    · have : ∑ j ∈ s, w j * p j = w i * p i :=
        Finset.sum_eq_single i (fun j hj hne => by
          by_cases h2 : p j = 0
          · simp [h2]
          · exact absurd (h j hj i hi h2 h1) hne) (fun h' => absurd hi h')
      rw [this]; simp

theorem jsRow_add (hw : ∀ i ∈ s, 0 ≤ w i) {p q : ι → ℝ} (hp : ∀ i ∈ s, 0 ≤ p i) (hq : ∀ i ∈ s, 0 ≤ q i) :
    jsRow s w (fun i => p i + q i) ≤ jsRow s w p + jsRow s w q := by
  rw [jsRow_terms hw hp, jsRow_terms hw hq, jsRow_terms hw (fun i hi => add_nonneg (hp i hi) (hq i hi))]
  simp only [mul_add, add_mul, Finset.sum_add_distrib]
  have : ∑ i ∈ s, (w i * p i * (Real.log (w i * p i + w i * q i) - Real.log (∑ j ∈ s, w j * p j + ∑ j ∈ s, w j * q j)) +
      w i * q i * (Real.log (w i * p i + w i * q i) - Real.log (∑ j ∈ s, w j * p j + ∑ j ∈ s, w j * q j))) ≤
      ∑ i ∈ s, (w i * p i * (Real.log (w i * p i) - Real.log (∑ j ∈ s, w j * p j)) +
        w i * q i * (Real.log (w i * q i) - Real.log (∑ j ∈ s, w j * q j))) := by
    refine Finset.sum_le_sum fun i hi => ?_
    rw [← add_mul]
    exact log_sum (mul_nonneg (hw i hi) (hp i hi)) (part_le hw hp hi) (mul_nonneg (hw i hi) (hq i hi)) (part_le hw hq hi)
  simp only [Finset.sum_add_distrib] at this
  linarith

theorem jsRow_sum (hw : ∀ i ∈ s, 0 ≤ w i) {R : Type*} (t : Finset R) {p : R → ι → ℝ} (hp : ∀ r ∈ t, ∀ i ∈ s, 0 ≤ p r i) :
    jsRow s w (fun i => ∑ r ∈ t, p r i) ≤ ∑ r ∈ t, jsRow s w (p r) := by
  classical
  induction t using Finset.induction_on with
  | empty => simp [jsRow]
  | insert r t hr ih =>
    simp only [Finset.sum_insert hr]
    refine (jsRow_add hw (hp r (by simp)) (fun i hi => Finset.sum_nonneg fun q hq => hp q (by simp [hq]) i hi)).trans ?_
    exact add_le_add le_rfl (ih fun q hq => hp q (by simp [hq]))

end core

theorem js_sum_range {M : Type*} [AddCommMonoid M] (n : ℕ) (f : ℕ → M) : ((List.range n).map f).sum = ∑ i ∈ range n, f i := by
  rw [← List.sum_toFinset _ List.nodup_range, List.toFinset_range]

theorem js_list_sum {M : Type*} [AddCommMonoid M] (l : List M) : l.sum = ∑ i ∈ range l.length, l.getD i 0 := by
  rw [← js_sum_range]
  congr 1
  refine List.ext_getElem (by simp) fun i h1 h2 => ?_
  rw [List.getElem_map, List.getElem_range, List.getD_eq_getElem _ _ h1]

theorem dot_range (w v : List ℝ) (h : w.length = v.length) : dot w v = ∑ i ∈ range v.length, w.getD i 0 * v.getD i 0 := by
  unfold dot
  rw [js_list_sum]
  simp only [List.length_zipWith, h, min_self]
  refine Finset.sum_congr rfl fun i hi => ?_
  have hi' := Finset.mem_range.1 hi
  rw [List.getD_eq_getElem _ _ (by simp; omega), List.getD_eq_getElem _ _ (by omega), List.getD_eq_getElem _ _ hi', List.getElem_zipWith]

theorem entropy_range (m : ℕ) (x : List ℝ) (h : x.length = m) : entropy x = - ∑ r ∈ range m, x.getD r 0 * Real.log (x.getD r 0) := by
  unfold entropy
  rw [js_list_sum]
  simp only [List.length_map, h]
  congr 1
  refine Finset.sum_congr rfl fun r hr => ?_
  have hr' := Finset.mem_range.1 hr
  rw [List.getD_eq_getElem _ _ (by simp; omega), List.getD_eq_getElem _ _ (by omega), List.getElem_map, xlogy_eq]

/-- The divergence is a sum over the rows. -/
theorem js_rows {m : ℕ} {X : List (List ℝ)} (hX : ∀ c ∈ X, c.length = m) {wt : Option (List ℝ)} {w : List ℝ}
    (hw : jsWeights X.length wt = .ok w) (hlen : w.length = X.length) :
    jsMultivariate m X wt = .ok (∑ r ∈ range m, jsRow (range X.length) (fun i => w.getD i 0) fun i => cellX X r i) := by
  unfold jsMultivariate
  simp only [hw]
  congr 1
  rw [entropy_range m _ (by simp), dot_range _ _ (by simp [hlen])]
  simp only [List.length_map]
  have e1 : ∀ r ∈ range m, ((List.range m).map fun r => ((List.range X.length).map fun i => w.getD i 0 * cellX X r i).sum).getD r 0 =
      ∑ i ∈ range X.length, w.getD i 0 * cellX X r i := by
    intro r hr
    have hr' := Finset.mem_range.1 hr
    rw [List.getD_eq_getElem _ _ (by simpa using hr'), List.getElem_map, List.getElem_range, js_sum_range]
  have e2 : ∀ i ∈ range X.length, w.getD i 0 * (X.map entropy).getD i 0 =
      - ∑ r ∈ range m, w.getD i 0 * (cellX X r i * Real.log (cellX X r i)) := by
    intro i hi
    have hi' := Finset.mem_range.1 hi
    rw [List.getD_eq_getElem (X.map entropy) _ (by simpa using hi'), List.getElem_map, entropy_range m _ (hX _ (List.getElem_mem hi')),
      mul_neg, Finset.mul_sum]
    simp only [cellX, List.getD_eq_getElem X _ hi']
  rw [Finset.sum_congr rfl e2, Finset.sum_congr rfl fun r hr => by rw [e1 r hr], Finset.sum_neg_distrib, Finset.sum_comm]
  simp only [jsRow, Finset.sum_sub_distrib]
  ring


/-- A table: every column has one entry per row, and every class has a record. -/
def ProperTable (cols : List (List ℕ)) : Prop := cols ≠ [] ∧ ∀ c ∈ cols, c.length = rowsM cols ∧ 0 < c.sum

theorem pEvent_cell {cols : List (List ℕ)} (hc : ProperTable cols) {i r : ℕ} (hi : i < cols.length) (hr : r < rowsM cols) :
    cellX (pEventM cols) r i = classShare (rowsM cols) (cellM cols) r i := by
  obtain ⟨h1, h2⟩ := hc.2 _ (List.getElem_mem hi)
  have : ∑ q ∈ range (rowsM cols), cellM cols q i = cols[i].sum := by
    rw [js_list_sum, h1]
    simp only [cellM, List.getD_eq_getElem cols _ hi]
  unfold cellX pEventM classShare
  rw [this, List.getD_eq_getElem (cols.map _) _ (by simpa using hi), List.getElem_map, List.getD_eq_getElem _ _ (by simpa [h1] using hr),
    List.getElem_map]
  simp only [cellM, List.getD_eq_getElem cols _ hi, List.getD_eq_getElem cols[i] _ (h1 ▸ hr)]

theorem classShare_nonneg (m : ℕ) (count : ℕ → ℕ → ℕ) (r i : ℕ) : 0 ≤ classShare m count r i := by unfold classShare; positivity

theorem classShare_total {m : ℕ} {count : ℕ → ℕ → ℕ} {i : ℕ} (h : 0 < ∑ q ∈ range m, count q i) : ∑ r ∈ range m, classShare m count r i = 1 := by
  unfold classShare
  rw [← Finset.sum_div, div_eq_one_iff_eq (by exact_mod_cast h.ne')]
  push_cast; rfl

theorem column_pos {cols : List (List ℕ)} (hc : ProperTable cols) {i : ℕ} (hi : i < cols.length) :
    0 < ∑ q ∈ range (rowsM cols), cellM cols q i := by
  obtain ⟨h1, h2⟩ := hc.2 _ (List.getElem_mem hi)
  rw [js_list_sum, h1] at h2
  simpa only [cellM, List.getD_eq_getElem cols _ hi] using h2

theorem replicate_getD (n i : ℕ) (a : ℝ) (h : i < n) : (List.replicate n a).getD i 0 = a := by
  rw [List.getD_eq_getElem _ _ (by simpa using h)]; simp

theorem jsRow_congr {s : Finset ℕ} {w w' p p' : ℕ → ℝ} (h1 : ∀ i ∈ s, w i = w' i) (h2 : ∀ i ∈ s, p i = p' i) : jsRow s w p = jsRow s w' p' := by
  unfold jsRow
  have : ∑ i ∈ s, w i * p i = ∑ i ∈ s, w' i * p' i := Finset.sum_congr rfl fun i hi => by rw [h1 i hi, h2 i hi]
  rw [this]
  congr 1
  exact Finset.sum_congr rfl fun i hi => by rw [h1 i hi, h2 i hi]

theorem jsTable_rows {cols : List (List ℕ)} (hc : ProperTable cols) :
    jsTable cols = .ok (∑ r ∈ range (rowsM cols), jsRow (range cols.length) (fun _ => 1 / (cols.length : ℝ)) (classShare (rowsM cols) (cellM cols) r)) := by
  unfold jsTable
  have hl : (pEventM cols).length = cols.length := by simp [pEventM]
  rw [js_rows (wt := none) (w := List.replicate cols.length (1 / (cols.length : ℝ))) ?_ (by rw [hl]; rfl) (by simp [hl]), hl]
  · congr 1
    refine Finset.sum_congr rfl fun r hr => jsRow_congr (fun i hi => replicate_getD _ _ _ (Finset.mem_range.1 hi)) fun i hi => ?_
    exact pEvent_cell hc (Finset.mem_range.1 hi) (Finset.mem_range.1 hr)
  · intro c hcm
    simp only [pEventM, List.mem_map] at hcm
    obtain ⟨c', h, rfl⟩ := hcm
    simpa using (hc.2 _ h).1

theorem weights_pos {n : ℕ} (h : 0 < n) : (∀ i ∈ range n, 0 < (fun _ : ℕ => 1 / (n : ℝ)) i) ∧ ∑ i ∈ range n, (fun _ : ℕ => 1 / (n : ℝ)) i = 1 := by
  have : (0 : ℝ) < n := by exact_mod_cast h
  exact ⟨fun i _ => by positivity, by simp [this.ne']⟩

/-- C109: the divergence of the table is the mean Kullback-Leibler divergence of the classes from the mean distribution over the
rows. -/
theorem C109_value {cols : List (List ℕ)} (hc : ProperTable cols) : jsTable cols = .ok (jsClasses (rowsM cols) cols.length (cellM cols)) := by
  rw [jsTable_rows hc]
  congr 1
  set n := cols.length with hn
  set m := rowsM cols
  have h0 : 0 < n := List.length_pos_iff.2 hc.1
  have hq : (n : ℝ) ≠ 0 := by exact_mod_cast h0.ne'
  unfold jsClasses klRows
  rw [Finset.sum_comm, Finset.sum_div]
  refine Finset.sum_congr rfl fun r hr => ?_
  unfold jsRow
  have hm : ∑ i ∈ range n, 1 / (n : ℝ) * classShare m (cellM cols) r i = (∑ j ∈ range n, classShare m (cellM cols) r j) / n := by
    rw [← Finset.mul_sum]; ring
  rw [hm]
  set M := (∑ j ∈ range n, classShare m (cellM cols) r j) / n with hM
  have hM' : M = ∑ i ∈ range n, 1 / (n : ℝ) * classShare m (cellM cols) r i := hm.symm
  have e : ∀ i ∈ range n, classShare m (cellM cols) r i * Real.log (classShare m (cellM cols) r i / M) =
      classShare m (cellM cols) r i * Real.log (classShare m (cellM cols) r i) - classShare m (cellM cols) r i * Real.log M := by
    intro i hi
    rcases (classShare_nonneg m (cellM cols) r i).eq_or_lt with h | h
    · rw [← h]; simp
    · have : 0 < M := by
        rw [hM']
        have hi' := part_le (s := range n) (w := fun _ => 1 / (n : ℝ)) (fun i hi => ((weights_pos h0).1 i hi).le)
          (fun i _ => classShare_nonneg m (cellM cols) r i) hi
        have hw := (weights_pos h0).1 i hi
        exact (mul_pos hw h).trans_le hi'
      rw [Real.log_div h.ne' this.ne', mul_sub]
  rw [Finset.sum_congr rfl e, Finset.sum_sub_distrib, ← Finset.sum_mul, ← Finset.mul_sum]
  have : ∑ i ∈ range n, classShare m (cellM cols) r i = n * M := by rw [hM]; field_simp
  rw [this]
  field_simp

/-- C109: the divergence of a table with `n` classes lies between 0 and `log n`. -/
theorem C109_bounds {cols : List (List ℕ)} (hc : ProperTable cols) : ∃ js, jsTable cols = .ok js ∧ 0 ≤ js ∧ js ≤ Real.log cols.length := by
  refine ⟨_, jsTable_rows hc, ?_, ?_⟩
  all_goals
    have h0 : 0 < cols.length := List.length_pos_iff.2 hc.1
    obtain ⟨hw, h1⟩ := weights_pos h0
  · exact Finset.sum_nonneg fun r _ => jsRow_nonneg (fun i hi => (hw i hi).le) h1 fun i _ => classShare_nonneg _ _ _ _
  · refine (Finset.sum_le_sum fun r _ => jsRow_le (fun i hi => (hw i hi).le) fun i _ => classShare_nonneg _ _ r i).trans (le_of_eq ?_)
    simp only [Finset.sum_neg_distrib]
    rw [Finset.sum_comm]
    simp only [← Finset.sum_mul, ← Finset.mul_sum]
    rw [Finset.sum_congr rfl fun i hi => by rw [classShare_total (column_pos hc (Finset.mem_range.1 hi))]]
    have : (cols.length : ℝ) ≠ 0 := by exact_mod_cast h0.ne'
    simp [this]

/-- C109: the divergence is 0 exactly if all classes have the same distribution over the rows. -/
theorem C109_zero_iff {cols : List (List ℕ)} (hc : ProperTable cols) : jsTable cols = .ok 0 ↔
    ∀ r < rowsM cols, ∀ i < cols.length, ∀ j < cols.length,
      classShare (rowsM cols) (cellM cols) r i = classShare (rowsM cols) (cellM cols) r j := by
  have h0 : 0 < cols.length := List.length_pos_iff.2 hc.1
  obtain ⟨hw, h1⟩ := weights_pos h0
  rw [jsTable_rows hc, Except.ok.injEq, Finset.sum_eq_zero_iff_of_nonneg
    (fun r _ => jsRow_nonneg (fun i hi => (hw i hi).le) h1 fun i _ => classShare_nonneg _ _ _ _)]
  have key := fun r => jsRow_zero (p := classShare (rowsM cols) (cellM cols) r) hw h1 fun i _ => classShare_nonneg _ _ _ _
  simp only [key, Finset.mem_range]
  constructor
  · intro h r hr i hi j hj
    rw [h r hr i hi, h r hr j hj]
  · intro h r hr j hj
    rw [Finset.sum_congr rfl fun i hi => by rw [h r hr i (Finset.mem_range.1 hi) j hj], ← Finset.sum_mul, h1, one_mul]

/-- C109: the divergence is `log n` exactly if no row has records of two classes. -/
theorem C109_max_iff {cols : List (List ℕ)} (hc : ProperTable cols) : jsTable cols = .ok (Real.log cols.length) ↔
    ∀ r < rowsM cols, ∀ i < cols.length, ∀ j < cols.length, 0 < cellM cols r i → 0 < cellM cols r j → i = j := by
  have h0 : 0 < cols.length := List.length_pos_iff.2 hc.1
  obtain ⟨hw, h1⟩ := weights_pos h0
  have hlog : Real.log cols.length = ∑ r ∈ range (rowsM cols), - ∑ i ∈ range cols.length,
      (fun _ : ℕ => 1 / (cols.length : ℝ)) i * classShare (rowsM cols) (cellM cols) r i * Real.log ((fun _ : ℕ => 1 / (cols.length : ℝ)) i) := by
    simp only [Finset.sum_neg_distrib]
    rw [Finset.sum_comm]
    simp only [← Finset.sum_mul, ← Finset.mul_sum]
    rw [Finset.sum_congr rfl fun i hi => by rw [classShare_total (column_pos hc (Finset.mem_range.1 hi))]]
    have : (cols.length : ℝ) ≠ 0 := by exact_mod_cast h0.ne'
    simp [this]
  rw [jsTable_rows hc, Except.ok.injEq, hlog, Finset.sum_eq_sum_iff_of_le
    (fun r _ => jsRow_le (fun i hi => (hw i hi).le) fun i _ => classShare_nonneg _ _ r i)]
  have key := fun r => jsRow_max (p := classShare (rowsM cols) (cellM cols) r) hw fun i _ => classShare_nonneg _ _ _ _
  simp only [key, Finset.mem_range]
  have pos : ∀ r < rowsM cols, ∀ i < cols.length, (classShare (rowsM cols) (cellM cols) r i ≠ 0 ↔ 0 < cellM cols r i) := by
    intro r hr i hi
    have := column_pos hc hi
    unfold classShare
    rw [ne_eq, div_eq_zero_iff, not_or, Nat.cast_eq_zero, Nat.cast_eq_zero]
    omega
  constructor
  · intro h r hr i hi j hj a b
    exact h r hr i hi j hj ((pos r hr i hi).2 a) ((pos r hr j hj).2 b)
  · intro h r hr i hi j hj a b
    exact h r hr i hi j hj ((pos r hr i hi).1 a) ((pos r hr j hj).1 b)

/-- C109: joining rows of a table (bins, special or missing rows, neighbouring or not) never increases the divergence. -/
theorem C109_joined {fine coarse : List (List ℕ)} (hf : ProperTable fine) (hk : ProperTable coarse) (hn : coarse.length = fine.length)
    {g : ℕ → ℕ} (hj : RowsJoined fine.length (rowsM fine) (rowsM coarse) g (cellM fine) (cellM coarse)) :
    ∃ jf jc, jsTable fine = .ok jf ∧ jsTable coarse = .ok jc ∧ jc ≤ jf := by
  refine ⟨_, _, jsTable_rows hf, jsTable_rows hk, ?_⟩
  have h0 : 0 < fine.length := List.length_pos_iff.2 hf.1
  obtain ⟨hw, h1⟩ := weights_pos h0
  have hmaps : ∀ r ∈ range (rowsM fine), g r ∈ range (rowsM coarse) := fun r hr => Finset.mem_range.2 (hj.1 r (Finset.mem_range.1 hr))
  have htot : ∀ i < fine.length, ∑ q ∈ range (rowsM coarse), cellM coarse q i = ∑ q ∈ range (rowsM fine), cellM fine q i := by
    intro i hi
    rw [Finset.sum_congr rfl fun k hk => hj.2 i hi k (Finset.mem_range.1 hk)]
    exact Finset.sum_fiberwise_of_maps_to hmaps _
  rw [hn, ← Finset.sum_fiberwise_of_maps_to hmaps fun r => jsRow (range fine.length) (fun _ => 1 / (fine.length : ℝ))
    (classShare (rowsM fine) (cellM fine) r)]
  refine Finset.sum_le_sum fun k hk' => ?_
  refine le_trans (le_of_eq ?_) (jsRow_sum (fun i hi => (hw i hi).le) _ fun r _ i _ => classShare_nonneg (rowsM fine) (cellM fine) r i)
  refine jsRow_congr (fun _ _ => rfl) fun i hi => ?_
  unfold classShare
  rw [htot i (Finset.mem_range.1 hi), hj.2 i (Finset.mem_range.1 hi) k (Finset.mem_range.1 hk'), ← Finset.sum_div]
  push_cast; rfl


/-- C109: the table of every fit (numerical variable, at least one class) has a divergence, to which the theorems above apply, and
the quality score of a table with that divergence lies in [0, 1]. -/
theorem C109_fit {α κ : Type*} [LinearOrder α] [LinearOrder κ] {sc : SpecialCodes α} {prebin : List (RecM α κ) → List α}
    {solver : SolverM} {c : SolverCfgM} {recs : List (RecM α κ)} {f : FittedM α κ} (hp : ProperCodes sc)
    (hsort : ∀ l, (prebin l).Pairwise (· ≤ ·)) (hr : RespectsM c solver) (h : fitNumericalM sc none prebin solver recs = .ok f)
    (hne : f.classes ≠ []) :
    ProperTable f.event ∧ f.event.length = f.classes.length ∧
    ∃ js, jsTable f.event = .ok js ∧ 0 ≤ js ∧ js ≤ Real.log f.classes.length ∧
      ∀ (p : List ℝ) (hh : ℝ), (∀ a ∈ p, 0 ≤ a ∧ a ≤ 1) → 0 ≤ hh → hh ≤ 1 →
        0 ≤ multiclassQualityScore js f.classes.length p hh ∧ multiclassQualityScore js f.classes.length p hh ≤ 1 := by
  have hl := event_length hsort hr h
  have hP : ProperTable f.event := by
    refine ⟨fun h0 => hne (List.length_eq_zero_iff.1 (by rw [← hl, h0]; rfl)), fun col hcol => ?_⟩
    obtain ⟨i, hi, rfl⟩ := List.getElem_of_mem hcol
    have hi' : i < f.classes.length := hl ▸ hi
    have hget : f.classes[i]? = some f.classes[i] := List.getElem?_eq_getElem hi'
    obtain ⟨col, h1, h2, -⟩ := C56_rows hp hsort hr h hget
    rw [List.getElem?_eq_getElem hi, Option.some.injEq] at h1
    refine ⟨by rw [rowsM_eq hp hsort hr h hne, h1, h2], ?_⟩
    have ht := (C56_totals hp hsort hr h).1 i _ hget
    unfold totalEvent at ht
    rw [List.getD_eq_getElem _ _ hi] at ht
    rw [ht]
    obtain ⟨r, hr', -, hy⟩ := ((C56_classes hsort hr h).1.2 f.classes[i]).1 (List.getElem_mem hi')
    exact List.countP_pos_iff.2 ⟨r, hr', by simpa using hy⟩
  obtain ⟨js, h1, h2, h3⟩ := C109_bounds hP
  exact ⟨hP, hl, js, h1, h2, hl ▸ h3, fun p hh a b d => (C23_other_quality_scores h2 a b d).1⟩

/-- C109: `jensen_shannon_multivariate` with weights refuses exactly the weights of a wrong number or with a sum other than one;
if the columns are probability distributions and no weight is negative, the divergence lies between 0 and the entropy of the
weights. -/
theorem C109_weights (m : ℕ) (X : List (List ℝ)) (w : List ℝ) (hX : ∀ c ∈ X, c.length = m) :
    ((∃ js, jsMultivariate m X (some w) = .ok js) ↔ w.length = X.length ∧ w.sum = 1) ∧
    ∀ js, jsMultivariate m X (some w) = .ok js → (∀ a ∈ w, 0 ≤ a) → (∀ c ∈ X, (∀ a ∈ c, 0 ≤ a) ∧ c.sum = 1) →
      0 ≤ js ∧ js ≤ -(w.map fun a => a * Real.log a).sum := by
  classical
  have hcase : ∀ js, jsMultivariate m X (some w) = .ok js → w.length = X.length ∧ w.sum = 1 ∧ jsWeights X.length (some w) = .ok w := by
    intro js h
    by_cases h1 : w.length = X.length
    · by_cases h2 : w.sum = 1
      · exact ⟨h1, h2, by simp [jsWeights, h1, h2]⟩
      · simp [jsMultivariate, jsWeights, h1, h2] at h
    · simp [jsMultivariate, jsWeights, h1] at h
  refine ⟨⟨fun ⟨js, h⟩ => ⟨(hcase js h).1, (hcase js h).2.1⟩, fun ⟨h1, h2⟩ => ?_⟩, fun js h hw hc => ?_⟩
  · simp [jsMultivariate, jsWeights, h1, h2]
  · obtain ⟨h1, h2, h3⟩ := hcase js h
    rw [js_rows hX h3 h1, Except.ok.injEq] at h
    subst h
    have hw' : ∀ i ∈ range X.length, 0 ≤ w.getD i 0 := by
      intro i hi
      have hi' := Finset.mem_range.1 hi
      rw [List.getD_eq_getElem _ _ (h1 ▸ hi')]
      exact hw _ (List.getElem_mem _)
    have hs : ∑ i ∈ range X.length, w.getD i 0 = 1 := by rw [← h2, js_list_sum w, h1]
    have hx : ∀ r, ∀ i ∈ range X.length, 0 ≤ cellX X r i := by
      intro r i hi
      have hi' := Finset.mem_range.1 hi
      unfold cellX
      rw [List.getD_eq_getElem X _ hi']
      by_cases hr : r < X[i].length
      · rw [List.getD_eq_getElem _ _ hr]
        exact (hc _ (List.getElem_mem hi')).1 _ (List.getElem_mem hr)
      · rw [List.getD_eq_default _ _ (by omega)]
    refine ⟨Finset.sum_nonneg fun r _ => jsRow_nonneg hw' hs (hx r), (Finset.sum_le_sum fun r _ => jsRow_le hw' (hx r)).trans (le_of_eq ?_)⟩
    rw [Finset.sum_neg_distrib, Finset.sum_comm, js_list_sum (w.map _)]
    simp only [List.length_map, h1]
    congr 1
    refine Finset.sum_congr rfl fun i hi => ?_
    have hi' := Finset.mem_range.1 hi
    have hcol : ∑ r ∈ range m, cellX X r i = 1 := by
      rw [← (hc _ (List.getElem_mem hi')).2, js_list_sum X[i], hX _ (List.getElem_mem hi')]
      simp only [cellX, List.getD_eq_getElem X _ hi']
    rw [← Finset.sum_mul, ← Finset.mul_sum, hcol, mul_one, List.getD_eq_getElem (w.map _) _ (by simp; omega), List.getElem_map,
      List.getD_eq_getElem _ _ (h1 ▸ hi')]

/-- Finding: negative weights are accepted, and the "divergence" may be negative then. -/
theorem C109_negative_weights : jsMultivariate 2 [[1 / 2, 1 / 2], [1, 0]] (some [2, -1]) = .ok (-(2 * Real.log 2)) := by
  have hw : ([2, -1] : List ℝ).sum = 1 := by norm_num
  simp [jsMultivariate, jsWeights, hw, cellX, entropy, dot, xlogy_eq, List.range_succ]
  norm_num
  ring

/-- A table with three classes, three bins, a special and a missing row, and the table with the first two bins joined. -/
def exJs : List (List ℕ) := [[4, 1, 0, 0, 1], [1, 3, 2, 1, 0], [0, 1, 5, 0, 2]]
def exJsJoined : List (List ℕ) := [[5, 0, 0, 1], [4, 2, 1, 0], [1, 5, 0, 2]]

example : ProperTable exJs ∧ ProperTable exJsJoined ∧
    RowsJoined exJs.length (rowsM exJs) (rowsM exJsJoined) (fun r => r - 1) (cellM exJs) (cellM exJsJoined) := by
  unfold ProperTable RowsJoined
  decide

/-- Neither bound is reached by it; a table with separated classes has the divergence `log 2`. -/
example : jsTable [[3, 0, 1], [0, 2, 0]] = .ok (Real.log ((2 : ℕ) : ℝ)) :=
  (C109_max_iff (cols := [[3, 0, 1], [0, 2, 0]]) (by unfold ProperTable; decide)).2 (by decide)

example : ∀ js, jsTable exJs = .ok js → js ≠ 0 := by
  rintro _ h rfl
  have := (C109_zero_iff (cols := exJs) (by unfold ProperTable; decide)).1 h 0 (by decide) 0 (by decide) 1 (by decide)
  have e : rowsM exJs = 5 := rfl
  rw [e] at this
  simp only [classShare, Finset.sum_range_succ, Finset.sum_range_zero] at this
  norm_num [exJs, cellM] at this

/-- The fit of `Props/MulticlassTable.lean` meets the hypotheses. -/
example : ∃ js, jsTable exFittedM.event = .ok js ∧ 0 ≤ js := by
  obtain ⟨js, h1, h2, -⟩ := C109_bounds (cols := exFittedM.event) (by unfold ProperTable; decide)
  exact ⟨js, h1, h2⟩

end OptBinning
