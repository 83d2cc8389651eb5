import Verif.Model.CatStream
import Verif.Lemmas.Fit
import Verif.Lemmas.Categorical
import Mathlib.Data.List.GetD
import Mathlib.Algebra.BigOperators.Group.Finset.Basic
import Mathlib.Algebra.Order.BigOperators.Group.Finset
import Mathlib.Algebra.BigOperators.Group.List.Lemmas
import Mathlib.Tactic.Ring
import Mathlib.Tactic.Linarith

/-! # Regrouping of categories (`_compute_cat_prebins`) -/
namespace OptBinning
open Finset

/-- Number of entries that are at most `j`. -/
def cnt (S : List ℕ) (j : ℕ) : ℕ := S.countP fun s => decide (s ≤ j)

theorem cnt_le_length (S : List ℕ) (j : ℕ) : cnt S j ≤ S.length := List.countP_le_length

theorem lt_cnt {S : List ℕ} (hs : S.Pairwise (· < ·)) (t j : ℕ) : t < cnt S j ↔ t < S.length ∧ S.getD t 0 ≤ j := by
  induction S generalizing t with
  | nil => simp [cnt]
  | cons a S ih =>
    obtain ⟨ha, hs⟩ := List.pairwise_cons.1 hs
    have ih := ih hs
    by_cases haj : a ≤ j
    · have hc : cnt (a :: S) j = cnt S j + 1 := by simp [cnt, haj]
      rw [hc]
      cases t with
      | zero => simp [haj]
      | succ t => simpa using ih t
    · have hc : cnt (a :: S) j = 0 := by
        simp only [cnt, List.countP_eq_zero, decide_eq_true_eq, List.mem_cons, forall_eq_or_imp]
        exact ⟨haj, fun b hb => by have := ha b hb; omega⟩
      rw [hc]
      simp only [Nat.not_lt_zero, false_iff, not_and, List.length_cons]
      intro ht
      cases t with
      | zero => simpa using haj
      | succ t =>
        have : S.getD t 0 ∈ S := by
          rw [List.getD_eq_getElem _ _ (by omega)]; exact List.getElem_mem _
        have := ha _ this
        simp only [List.getD_cons_succ]; omega

/-- Sum of the entries whose position is sent to `i`. -/
def grpSum (φ : ℕ → ℕ) (cs : List ℕ) (i : ℕ) : ℕ := ∑ j ∈ range cs.length with φ j = i, cs.getD j 0

/-- The sums for `i ≤ k`. -/
def groupSums (φ : ℕ → ℕ) (k : ℕ) (cs : List ℕ) : List ℕ := (List.range (k + 1)).map (grpSum φ cs)

@[simp] theorem length_groupSums (φ : ℕ → ℕ) (k : ℕ) (cs : List ℕ) : (groupSums φ k cs).length = k + 1 := by simp [groupSums]

theorem getD_groupSums (φ : ℕ → ℕ) (k : ℕ) (cs : List ℕ) {i : ℕ} (hi : i ≤ k) : (groupSums φ k cs).getD i 0 = grpSum φ cs i := by
  rw [List.getD_eq_getElem _ _ (by simp; omega)]; simp [groupSums]

theorem grpSum_comp (φ c : ℕ → ℕ) (k : ℕ) (cs : List ℕ) (hφ : ∀ j < cs.length, φ j ≤ k) (i : ℕ) :
    grpSum c (groupSums φ k cs) i = grpSum (fun j => c (φ j)) cs i := by
  unfold grpSum
  rw [length_groupSums]
  have h1 : ∀ g ∈ (range (k + 1)).filter (fun g => c g = i), (groupSums φ k cs).getD g 0 = grpSum φ cs g := by
    intro g hg
    exact getD_groupSums _ _ _ (by simp at hg; omega)
  rw [Finset.sum_congr rfl h1]
  unfold grpSum
  rw [Finset.sum_sigma']
  refine Finset.sum_bij' (fun p _ => p.2) (fun j _ => ⟨φ j, j⟩) ?_ ?_ ?_ ?_ ?_
  · rintro ⟨g, j⟩ h; simp at h ⊢; exact ⟨h.2.1, by rw [h.2.2]; exact h.1.2⟩
  · intro j h; simp at h ⊢; exact ⟨⟨by have := hφ j h.1; omega, h.2⟩, h.1⟩
  · rintro ⟨g, j⟩ h; simp at h ⊢; exact h.2.2
  · intro j h; rfl
  · intro p h; rfl

theorem groupSums_comp (φ c : ℕ → ℕ) (k k' : ℕ) (cs : List ℕ) (hφ : ∀ j < cs.length, φ j ≤ k) :
    groupSums c k' (groupSums φ k cs) = groupSums (fun j => c (φ j)) k' cs := by
  rw [groupSums, groupSums]
  exact List.map_congr_left fun i _ => grpSum_comp φ c k cs hφ i

theorem grpSum_congr {φ ψ : ℕ → ℕ} {cs : List ℕ} (h : ∀ j < cs.length, φ j = ψ j) (i : ℕ) : grpSum φ cs i = grpSum ψ cs i := by
  unfold grpSum
  congr 1
  ext j
  simp only [mem_filter, mem_range, and_congr_right_iff]
  intro hj; rw [h j hj]

theorem groupSums_congr {φ ψ : ℕ → ℕ} {cs : List ℕ} (k : ℕ) (h : ∀ j < cs.length, φ j = ψ j) :
    groupSums φ k cs = groupSums ψ k cs := List.map_congr_left fun i _ => grpSum_congr h i

theorem groupSums_id {cs : List ℕ} {k : ℕ} (h : cs.length = k + 1) : groupSums id k cs = cs := by
  apply List.ext_getElem (by simp [h])
  intro i h1 h2
  rw [← List.getD_eq_getElem _ 0, ← List.getD_eq_getElem _ 0, getD_groupSums _ _ _ (by simp at h1; omega)]
  unfold grpSum
  rw [Finset.sum_filter]
  simp [h2]

theorem grpSum_pos {φ : ℕ → ℕ} {cs : List ℕ} {i j : ℕ} (hj : j < cs.length) (h : φ j = i) (hp : 0 < cs.getD j 0) : 0 < grpSum φ cs i := by
  have := Finset.single_le_sum (s := (range cs.length).filter fun j => φ j = i) (f := fun j => cs.getD j 0) (fun _ _ => Nat.zero_le _)
    (a := j) (by simp [hj, h])
  unfold grpSum; omega

theorem grpSum_le {φ : ℕ → ℕ} {cs : List ℕ} {i j : ℕ} (hj : j < cs.length) (h : φ j = i) : cs.getD j 0 ≤ grpSum φ cs i :=
  Finset.single_le_sum (s := (range cs.length).filter fun j => φ j = i) (f := fun j => cs.getD j 0) (fun _ _ => Nat.zero_le _)
    (a := j) (by simp [hj, h])

theorem grpSum_zero {φ : ℕ → ℕ} {cs : List ℕ} {i : ℕ} (h : ∀ j < cs.length, φ j = i → cs.getD j 0 = 0) : grpSum φ cs i = 0 := by
  unfold grpSum
  refine Finset.sum_eq_zero fun j hj => ?_
  simp at hj
  exact h j hj.1 hj.2

theorem sum_eq_range (cs : List ℕ) : cs.sum = ∑ j ∈ range cs.length, cs.getD j 0 := by
  induction cs with
  | nil => simp
  | cons a l ih => rw [List.sum_cons, ih, List.length_cons, Finset.sum_range_succ']; simp [add_comm]

theorem grpSum_all {φ : ℕ → ℕ} {cs : List ℕ} {i : ℕ} (h : ∀ j < cs.length, φ j = i) : grpSum φ cs i = cs.sum := by
  unfold grpSum
  rw [sum_eq_range, Finset.filter_true_of_mem (by intro j hj; exact h j (by simpa using hj))]

theorem sum_groupSums {φ : ℕ → ℕ} {cs : List ℕ} {k : ℕ} (h : ∀ j < cs.length, φ j ≤ k) : (groupSums φ k cs).sum = cs.sum := by
  have h1 := grpSum_comp φ (fun _ => 0) k cs h 0
  rw [grpSum_all (fun _ _ => rfl), grpSum_all (fun _ _ => rfl)] at h1
  exact h1

/-! ### splits -/

/-- Split before position `s`. -/
def half (s : ℕ) : ℚ := (s : ℚ) - 1/2

theorem ceil_half (s : ℕ) : ⌈half s⌉ = (s : ℤ) := by
  rw [Int.ceil_eq_iff]; unfold half; constructor <;> push_cast <;> linarith

theorem half_strictMono : StrictMono half := by
  intro a b h
  unfold half
  have : (a : ℚ) < b := by exact_mod_cast h
  linarith

theorem catSplits_eq (n : ℕ) : catSplits n = ((List.range (n - 1)).map (· + 1)).map half := by
  unfold catSplits
  rw [List.map_map]
  refine List.map_congr_left fun i _ => ?_
  simp only [Function.comp, half]; push_cast; ring

theorem digitize_half (S : List ℕ) (j : ℕ) : digitize false ((S.map half).map Int.ceil) (some (j : ℤ)) = cnt S j := by
  simp only [digitize, cnt, List.countP_map, Bool.false_eq_true, if_false]
  congr 1
  funext s
  simp only [Function.comp, ceil_half]
  simp

theorem sum_zipIdx_filter (cs : List ℕ) (p : ℕ → Bool) (m : ℕ) :
    (((cs.zipIdx m).filter fun q => p q.2).map Prod.fst).sum = ∑ j ∈ range cs.length with p (m + j) = true, cs.getD j 0 := by
  induction cs generalizing m with
  | nil => simp
  | cons a l ih =>
    rw [List.zipIdx_cons, List.length_cons, Finset.sum_filter, Finset.sum_range_succ']
    have ih := ih (m + 1)
    rw [Finset.sum_filter] at ih
    have e : ∀ j, m + 1 + j = m + (j + 1) := fun j => by omega
    simp only [e] at ih
    simp only [List.getD_cons_succ, List.getD_cons_zero, Nat.add_zero]
    rw [← ih]
    by_cases h : p m = true
    · simp [h, add_comm]
    · simp [h]

theorem regroupCounts_eq (S : List ℕ) (cs : List ℕ) : regroupCounts (S.map half) cs = groupSums (cnt S) S.length cs := by
  unfold regroupCounts groupCodes groupSums
  rw [List.map_map, List.length_map]
  refine List.map_congr_left fun i _ => ?_
  simp only [Function.comp]
  have h1 := sum_zipIdx_filter cs (fun j => cnt S j == i) 0
  have h2 : (cs.zipIdx.filter fun p => digitize false ((S.map half).map Int.ceil) (some (p.2 : ℤ)) == i) =
      cs.zipIdx.filter fun q => cnt S q.2 == i := by
    congr 1; funext q; rw [digitize_half]
  rw [h2, h1, grpSum]
  simp

theorem select_map {β γ : Type*} (f : β → γ) (l : List β) (m : List Bool) : select (l.map f) m = (select l m).map f := by
  induction l generalizing m with
  | nil => simp
  | cons a l ih =>
    cases m with
    | nil => simp
    | cons b m => cases b <;> simp [ih]

theorem select_prefix {β : Type*} (l : List β) (m : List Bool) (p : ℕ) (hl : m.length = l.length)
    (h : ∀ i < l.length, m.getD i false = decide (i < p)) : select l m = l.take p := by
  induction l generalizing m p with
  | nil => simp
  | cons a l ih =>
    cases m with
    | nil => simp at hl
    | cons b m =>
      have h0 := h 0 (by simp)
      simp only [List.getD_cons_zero] at h0
      have ih' := fun p h => ih m p (by simpa using hl) h
      cases p with
      | zero =>
        simp at h0; subst h0
        rw [select_cons_false, ih' 0 (fun i hi => by simpa using h (i + 1) (by simpa using hi))]
        simp
      | succ p =>
        simp at h0; subst h0
        rw [select_cons_true, ih' p (fun i hi => by simpa using h (i + 1) (by simpa using hi))]
        simp

theorem exists_of_mem_select {β : Type*} {l : List β} {m : List Bool} {b : β} (h : b ∈ select l m) :
    ∃ i, i < l.length ∧ l[i]? = some b ∧ m.getD i false = true := by
  induction l generalizing m with
  | nil => simp at h
  | cons a l ih =>
    cases m with
    | nil => simp at h
    | cons c m =>
      cases c with
      | true =>
        rw [select_cons_true] at h
        rcases List.mem_cons.1 h with h | h
        · exact ⟨0, by simp, by simp [h], by simp⟩
        · obtain ⟨i, h1, h2, h3⟩ := ih h
          exact ⟨i + 1, by simpa using h1, by simpa using h2, by simpa using h3⟩
      | false =>
        rw [select_cons_false] at h
        obtain ⟨i, h1, h2, h3⟩ := ih h
        exact ⟨i + 1, by simpa using h1, by simpa using h2, by simpa using h3⟩

theorem getD_maskSplits {rm : List Bool} {k i : ℕ} (hl : rm.length = k + 1) (hi : i < k) :
    (maskSplits false rm).getD i false = if i + 1 = k then rm.getD i false || rm.getD (i + 1) false else rm.getD i false := by
  unfold maskSplits
  simp only [Bool.false_eq_true, if_false]
  have h2 : rm.length - 2 = k - 1 := by omega
  have h1 : rm.length - 1 = k := by omega
  rw [h2, h1]
  have htl : (rm.take (k - 1)).length = k - 1 := by simp; omega
  by_cases h : i + 1 = k
  · have : i = k - 1 := by omega
    rw [if_pos h, List.getD_append_right _ _ _ _ (by omega), htl, this]
    have : k - 1 + 1 = k := by omega
    simp [this]
  · rw [if_neg h, List.getD_append _ _ _ _ (by omega)]
    rw [List.getD_eq_getElem?_getD, List.getD_eq_getElem?_getD, List.getElem?_take]
    rw [if_pos (by omega)]

theorem length_maskSplits {rm : List Bool} {k : ℕ} (hl : rm.length = k + 1) (hk : 0 < k) : (maskSplits false rm).length = k := by
  simp [maskSplits, hl]; omega

/-- Strictly increasing positive numbers. -/
theorem le_getD {S : List ℕ} (hs : S.Pairwise (· < ·)) (h1 : ∀ s ∈ S, 1 ≤ s) : ∀ i < S.length, i + 1 ≤ S.getD i 0 := by
  intro i hi
  induction i with
  | zero => rw [List.getD_eq_getElem _ _ hi]; exact h1 _ (List.getElem_mem _)
  | succ i ih =>
    have := ih (by omega)
    have h2 := List.pairwise_iff_getElem.1 hs i (i + 1) (by omega) hi (by omega)
    rw [← List.getD_eq_getElem _ 0, ← List.getD_eq_getElem _ 0] at h2
    omega

theorem getD_lt {S : List ℕ} (hs : S.Pairwise (· < ·)) {i j : ℕ} (hij : i < j) (hj : j < S.length) : S.getD i 0 < S.getD j 0 := by
  have h2 := List.pairwise_iff_getElem.1 hs i j (by omega) hj hij
  rwa [← List.getD_eq_getElem _ 0, ← List.getD_eq_getElem _ 0] at h2

/-- The unshifted prefix. -/
theorem exists_prefix {S : List ℕ} (hs : S.Pairwise (· < ·)) (h1 : ∀ s ∈ S, 1 ≤ s) :
    ∃ u ≤ S.length, (∀ i < u, S.getD i 0 = i + 1) ∧ ∀ i, u ≤ i → i < S.length → i + 2 ≤ S.getD i 0 := by
  by_cases h : ∃ i, i < S.length ∧ S.getD i 0 ≠ i + 1
  · obtain ⟨u, ⟨hu1, hu2⟩, hmin⟩ : ∃ u, (u < S.length ∧ S.getD u 0 ≠ u + 1) ∧ ∀ i < u, ¬ (i < S.length ∧ S.getD i 0 ≠ i + 1) :=
      ⟨Nat.find h, Nat.find_spec h, fun i hi => Nat.find_min h hi⟩
    refine ⟨u, by omega, ?_, ?_⟩
    · intro i hi
      have := hmin i hi
      by_contra hne
      exact this ⟨by omega, hne⟩
    · intro i hui
      induction i, hui using Nat.le_induction with
      | base => intro hi; have := le_getD hs h1 u hi; omega
      | succ i hui ih =>
        intro hi
        have h3 := ih (by omega)
        have h4 := getD_lt hs (Nat.lt_succ_self i) hi
        exact Nat.lt_of_le_of_lt h3 h4
  · push Not at h
    exact ⟨S.length, le_refl _, fun i hi => h i hi, fun i h1 h2 => by omega⟩

theorem getD_take {S : List ℕ} {k t : ℕ} (h : t < k) : (S.take k).getD t 0 = S.getD t 0 := by
  rw [List.getD_eq_getElem?_getD, List.getD_eq_getElem?_getD, List.getElem?_take, if_pos h]

theorem lt_cnt_take {S : List ℕ} (hs : S.Pairwise (· < ·)) {k : ℕ} (hk : k ≤ S.length) (t j : ℕ) :
    t < cnt (S.take k) j ↔ t < k ∧ S.getD t 0 ≤ j := by
  rw [lt_cnt (hs.sublist (List.take_sublist _ _))]
  have : (S.take k).length = k := by simp; omega
  rw [this]
  refine and_congr_right fun h => ?_
  rw [getD_take h]

theorem cnt_take_eq_min {S : List ℕ} (hs : S.Pairwise (· < ·)) {k : ℕ} (hk : k ≤ S.length) (j : ℕ) :
    cnt (S.take k) j = min (cnt S j) k := by
  apply Nat.le_antisymm
  · by_contra h
    have h1 := (lt_cnt_take hs hk (min (cnt S j) k) j).1 (by omega)
    have h2 := (lt_cnt hs (min (cnt S j) k) j).2 ⟨by omega, h1.2⟩
    omega
  · by_contra h
    have h1 : cnt (S.take k) j < cnt S j := by omega
    have h2 := (lt_cnt hs _ j).1 h1
    have h3 := (lt_cnt_take hs hk (cnt (S.take k) j) j).2 ⟨by omega, h2.2⟩
    omega

end OptBinning
