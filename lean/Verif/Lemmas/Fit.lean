import Mathlib.Algebra.BigOperators.Group.Finset.Basic
import Mathlib.Algebra.BigOperators.Intervals
import Mathlib.Algebra.Order.BigOperators.Group.List
import Mathlib.Tactic.Ring
import Verif.Model.Fit
import Verif.Lemmas.Partition

set_option linter.unusedSectionVars false
set_option linter.unusedSimpArgs false

namespace OptBinning
open Spec Finset

variable {α : Type*} [LinearOrder α]

/-! ### selection -/

@[simp] theorem select_nil {β : Type*} (m : List Bool) : select ([] : List β) m = [] := by simp [select]
@[simp] theorem select_nil_right {β : Type*} (l : List β) : select l [] = [] := by simp [select]
@[simp] theorem select_cons_true {β : Type*} (a : β) (l : List β) (m : List Bool) :
    select (a :: l) (true :: m) = a :: select l m := by simp [select]
@[simp] theorem select_cons_false {β : Type*} (a : β) (l : List β) (m : List Bool) :
    select (a :: l) (false :: m) = select l m := by simp [select]

theorem select_sublist {β : Type*} (l : List β) (m : List Bool) : (select l m).Sublist l := by
  induction l generalizing m with
  | nil => simp
  | cons a l ih =>
    cases m with
    | nil => simp
    | cons b m => cases b <;> simp [ih, List.Sublist.cons]

theorem countP_eq_zero_of_sorted {s : List α} {a v : α} (h : (a :: s).Pairwise (· ≤ ·)) (hv : ¬ a ≤ v) :
    s.countP (fun t => decide (t ≤ v)) = 0 := by
  rw [List.countP_eq_zero]
  intro t ht
  have := (List.pairwise_cons.1 h).1 t ht
  simp only [decide_eq_true_eq]
  intro h2
  exact hv (this.trans h2)

/-- Digitising with a sub-list of the splits = counting the kept splits below the original index. -/
theorem countP_select {s : List α} {m : List Bool} (h : s.Pairwise (· ≤ ·)) (hl : m.length = s.length) (v : α) :
    (select s m).countP (fun t => decide (t ≤ v)) =
      (m.take (s.countP fun t => decide (t ≤ v))).count true := by
  induction s generalizing m with
  | nil => simp
  | cons a s ih =>
    cases m with
    | nil => simp at hl
    | cons b m =>
      have ih' := ih (m := m) (List.pairwise_cons.1 h).2 (by simpa using hl)
      by_cases hav : a ≤ v
      · cases b <;> simp [hav, ih']
      · have h0 : (a :: s).countP (fun t => decide (t ≤ v)) = 0 := by
          simp [List.countP_cons, hav, countP_eq_zero_of_sorted h hav]
        rw [h0, List.take_zero, List.count_nil, List.countP_eq_zero]
        intro t ht
        exact (List.countP_eq_zero.1 h0) t ((select_sublist _ _).mem ht)

theorem digitize_le (right : Bool) (s : List α) (v : Option α) : digitize right s v ≤ s.length := by
  cases v with
  | none => simp [digitize]
  | some v => exact List.countP_le_length

theorem inInterval_iff {s : List α} (h : s.Pairwise (· ≤ ·)) (v : α) (k : ℕ) :
    digitize false s (some v) = k ↔ InInterval s k v := by
  simp only [digitize, InInterval, Bool.false_eq_true, if_false]
  induction s generalizing k with
  | nil =>
    simp only [List.countP_nil, List.length_nil, List.getElem?_nil]
    constructor
    · rintro rfl; simp
    · rintro ⟨h, -⟩; omega
  | cons a s ih =>
    have ih' := ih (List.pairwise_cons.1 h).2
    by_cases hav : a ≤ v
    · simp only [List.countP_cons, hav, decide_true, if_true, List.length_cons]
      cases k with
      | zero =>
        simp only [Nat.add_eq_zero_iff, one_ne_zero, and_false, false_iff, not_and]
        intro _ _ h3
        exact absurd (h3 a (by simp)) (by simpa using hav)
      | succ k =>
        rw [Nat.add_right_cancel_iff, ih' k]
        simp only [List.getElem?_cons_succ, Nat.add_sub_cancel, Nat.succ_pos, forall_true_left, Nat.add_le_add_iff_right]
        constructor
        · rintro ⟨h1, h2, h3⟩
          refine ⟨h1, ?_, h3⟩
          intro b hb
          cases k with
          | zero => simp at hb; exact hb ▸ hav
          | succ k => exact h2 b (Nat.succ_pos _) (by simpa using hb)
        · rintro ⟨h1, h2, h3⟩
          refine ⟨h1, ?_, h3⟩
          intro b hk hb
          obtain ⟨j, rfl⟩ := Nat.exists_eq_succ_of_ne_zero hk.ne'
          exact h2 b (by simpa using hb)
    · have h0 := countP_eq_zero_of_sorted h hav
      simp only [List.countP_cons, hav, decide_false, Bool.false_eq_true, if_false, h0, List.length_cons]
      constructor
      · rintro rfl
        refine ⟨Nat.zero_le _, fun b hb => absurd hb (lt_irrefl _), ?_⟩
        intro b hb
        simp at hb
        exact hb ▸ not_le.1 hav
      · rintro ⟨h1, h2, -⟩
        by_contra hk
        have hk : 0 < k := by omega
        have hlt : k - 1 < (a :: s).length := by simp; omega
        have := h2 _ hk (List.getElem?_eq_getElem hlt)
        have h3 : a ≤ (a :: s)[k - 1] := by
          rcases Nat.eq_zero_or_pos (k - 1) with h4 | h4
          · simp [h4]
          · obtain ⟨j, hj⟩ := Nat.exists_eq_succ_of_ne_zero h4.ne'
            simp only [hj, List.getElem_cons_succ]
            exact (List.pairwise_cons.1 h).1 _ (List.getElem_mem _)
        exact hav (h3.trans this)

/-! ### `bin_info` -/

/-- Index of the bin containing pre-bin `i`. -/
def binOf (sol : List Bool) (i : ℕ) : ℕ := (sol.take i).count true

theorem accumBins_length (sol : List Bool) (c : List ℕ) (acc : ℕ) (h : sol.length = c.length) :
    (accumBins sol c acc).length = sol.count true := by
  induction sol generalizing c acc with
  | nil => simp [accumBins]
  | cons b s ih =>
    cases c with
    | nil => simp at h
    | cons d c => cases b <;> simp [accumBins, ih c _ (by simpa using h)]

theorem accumBins_getD (sol : List Bool) (c : List ℕ) (acc k : ℕ) (h : sol.length = c.length)
    (hl : (sol = [] ∧ acc = 0) ∨ sol.getLast? = some true) :
    (accumBins sol c acc).getD k 0 =
      (if k = 0 then acc else 0) + ∑ i ∈ range sol.length, if binOf sol i = k then c.getD i 0 else 0 := by
  induction sol generalizing c acc k with
  | nil =>
    rcases hl with ⟨-, rfl⟩ | hl
    · simp [accumBins]
    · simp at hl
  | cons b s ih =>
    cases c with
    | nil => simp at h
    | cons d c =>
      have h' : s.length = c.length := by simpa using h
      have hl' : s = [] ∨ s.getLast? = some true := by
        rcases hl with ⟨hl, -⟩ | hl
        · simp at hl
        · cases s with
          | nil => exact Or.inl rfl
          | cons b' s => right; simpa using hl
      rw [List.length_cons, sum_range_succ']
      cases b with
      | true =>
        have hl2 : (s = [] ∧ (0 : ℕ) = 0) ∨ s.getLast? = some true := by tauto
        cases k with
        | zero => simp [accumBins, binOf, Nat.add_comm]
        | succ k => simpa [accumBins, binOf] using ih c 0 k h' hl2
      | false =>
        have hne : s ≠ [] := by
          rintro rfl
          rcases hl with ⟨hl, -⟩ | hl <;> simp at hl
        have hl2 : (s = [] ∧ acc + d = 0) ∨ s.getLast? = some true := by tauto
        have := ih c (acc + d) k h' hl2
        simp only [accumBins, this, binOf, List.take_succ_cons, List.take_zero, List.count_nil, List.getD_cons_succ,
          List.getD_cons_zero]
        simp only [List.count_cons, Bool.false_eq_true, beq_iff_eq, if_false, Nat.add_zero]
        by_cases hk : k = 0
        · subst hk; simp; ring
        · simp [hk, Ne.symm hk]

theorem accumBins_sum (sol : List Bool) (c : List ℕ) (acc : ℕ) (h : sol.length = c.length)
    (hl : (sol = [] ∧ acc = 0) ∨ sol.getLast? = some true) : (accumBins sol c acc).sum = acc + c.sum := by
  induction sol generalizing c acc with
  | nil =>
    rcases hl with ⟨-, rfl⟩ | hl
    · cases c <;> simp_all [accumBins]
    · simp at hl
  | cons b s ih =>
    cases c with
    | nil => simp at h
    | cons d c =>
      have h' : s.length = c.length := by simpa using h
      have hl' : s = [] ∨ s.getLast? = some true := by
        rcases hl with ⟨hl, -⟩ | hl
        · simp at hl
        · cases s with
          | nil => exact Or.inl rfl
          | cons b' s => right; simpa using hl
      cases b with
      | true => rw [accumBins, List.sum_cons, ih c 0 h' (by tauto), List.sum_cons]; ring
      | false =>
        have hne : s ≠ [] := by
          rintro rfl
          rcases hl with ⟨hl, -⟩ | hl <;> simp at hl
        rw [accumBins, ih c (acc + d) h' (by tauto), List.sum_cons]; ring

/-! ### weights -/

theorem truncWeight_whole {recs : List (Rec α)} (h : WholeWeights recs) :
    ((truncWeight recs : ℕ) : ℚ) = (recs.map Rec.w).sum := by
  have : ∃ n : ℕ, (recs.map Rec.w).sum = n := by
    induction recs with
    | nil => exact ⟨0, by simp⟩
    | cons r recs ih =>
      obtain ⟨a, ha⟩ := h r (by simp)
      obtain ⟨b, hb⟩ := ih fun q hq => h q (by simp [hq])
      exact ⟨a + b, by simp [ha, hb]⟩
  obtain ⟨n, hn⟩ := this
  simp [truncWeight, hn]

theorem wholeWeights_filter {recs : List (Rec α)} (h : WholeWeights recs) (p : Rec α → Bool) :
    WholeWeights (recs.filter p) := fun r hr => h r (List.mem_of_mem_filter hr)

/-- Summing over classes. -/
theorem sum_filter_classes (recs : List (Rec α)) (p : Rec α → Bool) (idx : Rec α → ℕ) (n : ℕ) (P : ℕ → Bool)
    (h : ∀ r ∈ recs, idx r < n) :
    (∑ i ∈ range n, if P i = true then ((recs.filter fun r => p r && idx r == i).map Rec.w).sum else 0) =
      ((recs.filter fun r => p r && P (idx r)).map Rec.w).sum := by
  induction recs with
  | nil => simp
  | cons r recs ih =>
    have ih' := ih fun q hq => h q (by simp [hq])
    have hr : idx r < n := h r (by simp)
    have key : ∀ i, ((((r :: recs).filter fun r => p r && idx r == i).map Rec.w).sum : ℚ) =
        (if p r && idx r == i then r.w else 0) + ((recs.filter fun r => p r && idx r == i).map Rec.w).sum := by
      intro i
      by_cases hc : (p r && idx r == i) = true <;> simp [List.filter_cons, hc]
    have key2 : ((((r :: recs).filter fun r => p r && P (idx r)).map Rec.w).sum : ℚ) =
        (if p r && P (idx r) then r.w else 0) + ((recs.filter fun r => p r && P (idx r)).map Rec.w).sum := by
      by_cases hc : (p r && P (idx r)) = true <;> simp [List.filter_cons, hc]
    rw [key2, ← ih']
    simp only [key]
    have : (∑ i ∈ range n, if P i = true then ((if (p r && idx r == i) = true then r.w else 0) : ℚ) +
          ((recs.filter fun r => p r && idx r == i).map Rec.w).sum else 0) =
        (∑ i ∈ range n, if P i = true ∧ (p r && idx r == i) = true then r.w else 0) +
          ∑ i ∈ range n, if P i = true then ((recs.filter fun r => p r && idx r == i).map Rec.w).sum else 0 := by
      rw [← sum_add_distrib]
      refine sum_congr rfl fun i _ => ?_
      by_cases h1 : P i = true <;> by_cases h2 : (p r && idx r == i) = true <;> simp [h1, h2]
    rw [this]
    congr 1
    rw [sum_eq_single (idx r)]
    · by_cases h1 : P (idx r) = true <;> by_cases h2 : p r = true <;> simp [h1, h2]
    · intro j _ hj
      simp [Ne.symm hj]
    · intro hn
      exact absurd (mem_range.2 hr) hn

/-! ### the refinement loop -/

/-- What `_compute_prebins` returns. -/
theorem computePrebins_spec (cfg : PrebinCfg) (recs : List (Rec α)) (st : PrebinState α) (splits : List α)
    (pb : Prebins α) (h : computePrebins cfg recs st splits = .ok pb) :
    pb.splits.Sublist splits ∧
    ((pb.splits = [] ∧ pb.nonevent = [] ∧ pb.event = []) ∨
     (pb.splits ≠ [] ∧
      pb.nonevent = prebinCounts cfg.catUser (prebinNumber cfg.catUser pb.splits) pb.splits recs false ∧
      pb.event = prebinCounts cfg.catUser (prebinNumber cfg.catUser pb.splits) pb.splits recs true ∧
      (cfg.keepPure = false → (pureMask pb.nonevent pb.event).any id = false))) := by
  induction hn : splits.length using Nat.strong_induction_on generalizing splits st with
  | _ n ih =>
    rw [computePrebins] at h
    simp only at h
    split_ifs at h with h0 h1 h2
    · cases h
      exact ⟨List.Sublist.refl _, Or.inl ⟨List.length_eq_zero_iff.1 h0, rfl, rfl⟩⟩
    · cases h
      refine ⟨List.Sublist.refl _, Or.inr ⟨fun hc => h0 (List.length_eq_zero_iff.2 hc), rfl, rfl, ?_⟩⟩
      simp [h2]
    · have hm := maskSplits_any (c := cfg.catUser) (n := splits.length) (by omega)
        (by simp [pureMask, length_prebinCounts, prebinNumber]) h1
      have hlt := length_select_lt hm.1 hm.2
      have go : ∀ st', computePrebins cfg recs st' (select splits ((maskSplits cfg.catUser (pureMask
          (prebinCounts cfg.catUser (prebinNumber cfg.catUser splits) splits recs false)
          (prebinCounts cfg.catUser (prebinNumber cfg.catUser splits) splits recs true))).map
            (!·))) = .ok pb → _ := fun st' h' => ih _ (hn ▸ hlt) st' _ h' rfl
      have : ∃ st', computePrebins cfg recs st' (select splits ((maskSplits cfg.catUser (pureMask
          (prebinCounts cfg.catUser (prebinNumber cfg.catUser splits) splits recs false)
          (prebinCounts cfg.catUser (prebinNumber cfg.catUser splits) splits recs true))).map
            (!·))) = .ok pb := by
        cases hf : st.fixed with
        | none => simp only [hf] at h; exact ⟨_, h⟩
        | some fx =>
          simp only [hf] at h
          split_ifs at h with h3
          exact ⟨_, h⟩
      obtain ⟨st', h'⟩ := this
      obtain ⟨hs, hr⟩ := go st' h'
      exact ⟨hs.trans (select_sublist _ _), hr⟩
    · cases h
      refine ⟨List.Sublist.refl _, Or.inr ⟨fun hc => h0 (List.length_eq_zero_iff.2 hc), rfl, rfl, fun _ => by simpa using h1⟩⟩

end OptBinning
