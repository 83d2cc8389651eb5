import Verif.Model.Counterfactual
import Mathlib.Tactic.Linarith
import Mathlib.Tactic.FieldSimp
import Mathlib.Tactic.NormNum
import Mathlib.Algebra.Order.BigOperators.Group.Finset

/-! # Counterfactuals: decision variables and proposals -/
namespace OptBinning

open Finset

/-- Positions in the candidate lists chosen by a row of decision variables. -/
structure CFPos (d : CFData) (v : CFVars) (pos : ℕ → Option ℕ) : Prop where
  lt : ∀ i < d.p, ∀ j, pos i = some j → j < d.nbins i
  z : ∀ i < d.p, ∀ j < d.nbins i, v.z i j = if pos i = some j then 1 else 0
  a : ∀ i < d.p, v.a i = if (pos i).isSome then 1 else 0
  out : ∀ i, d.p ≤ i → pos i = none

theorem row_choice {n : ℕ} {z : ℕ → ℤ} (hz : ∀ j < n, z j = 0 ∨ z j = 1) (hs : ∑ j ∈ range n, z j ≤ 1) :
    ∃ pos : Option ℕ, (∀ j, pos = some j → j < n) ∧ (∀ j < n, z j = if pos = some j then 1 else 0) ∧
      ∑ j ∈ range n, z j = if pos.isSome then 1 else 0 := by
  by_cases h : ∃ j < n, z j = 1
  · obtain ⟨j, hj, h1⟩ := h
    have hother : ∀ l < n, l ≠ j → z l = 0 := by
      intro l hl hlj
      rcases hz l hl with h0 | h0
      · exact h0
      · exfalso
        have hsub : ({j, l} : Finset ℕ) ⊆ range n := by
          intro q hq; simp only [mem_insert, mem_singleton] at hq; rcases hq with rfl | rfl <;> simp [hj, hl]
        have := sum_le_sum_of_subset_of_nonneg (f := z) hsub (fun q hq _ => by rcases hz q (mem_range.mp hq) with h | h <;> omega)
        rw [sum_pair (Ne.symm hlj)] at this
        omega
    refine ⟨some j, ?_, ?_, ?_⟩
    · rintro l hl; injection hl with hl; omega
    · intro l hl
      by_cases hlj : l = j
      · subst hlj; simp [h1]
      · rw [hother l hl hlj, if_neg]; intro h; injection h with h; exact hlj h.symm
    · rw [sum_eq_single j (fun l hl hlj => hother l (mem_range.mp hl) hlj) (fun h => absurd (mem_range.mpr hj) h), h1]; simp
  · push Not at h
    have h0 : ∀ j < n, z j = 0 := fun j hj => (hz j hj).resolve_right (h j hj)
    refine ⟨none, by simp, fun j hj => by rw [h0 j hj]; simp, ?_⟩
    rw [sum_eq_zero (fun j hj => h0 j (mem_range.mp hj))]; simp

theorem exists_pos {d : CFData} {mc : ℤ} {v : CFVars} (hb : cfBounds d v) (hm : cfMaxChanges d mc v) : ∃ pos, CFPos d v pos := by
  have h : ∀ i, ∃ pos : Option ℕ, (i < d.p → (∀ j, pos = some j → j < d.nbins i) ∧ (∀ j < d.nbins i, v.z i j = if pos = some j then 1 else 0) ∧
      v.a i = if pos.isSome then 1 else 0) ∧ (d.p ≤ i → pos = none) := by
    intro i
    by_cases hi : i < d.p
    · obtain ⟨h1, h2⟩ := hm.1 i hi
      obtain ⟨pos, ha, hb', hc⟩ := row_choice (hb.1 i hi).2.2.1 (by rw [← h1]; exact h2)
      exact ⟨pos, fun _ => ⟨ha, hb', by rw [h1, hc]⟩, fun h => by omega⟩
    · exact ⟨none, fun h => absurd h hi, fun _ => rfl⟩
  choose pos hpos using h
  exact ⟨pos, fun i hi => ((hpos i).1 hi).1, fun i hi => ((hpos i).1 hi).2.1, fun i hi => ((hpos i).1 hi).2.2, fun i hi => (hpos i).2 hi⟩

/-- The explained model of the specification. -/
def CFData.explained (d : CFData) : Spec.Explained := ⟨d.p, d.x, d.cands, d.intercept, d.coef⟩

/-- The proposal of the chosen positions. -/
def CFData.proposal (d : CFData) (pos : ℕ → Option ℕ) : Spec.Proposal := fun i => (pos i).map fun j => (d.cands i).getD j (0, 0)

theorem value_sum {d : CFData} {pos : ℕ → Option ℕ} {i : ℕ} (hlt : ∀ j, pos i = some j → j < d.nbins i) {z : ℕ → ℝ}
    (hz : ∀ j < d.nbins i, z j = if pos i = some j then 1 else 0) :
    d.x i + ∑ j ∈ range (d.nbins i), (d.metric i j - d.x i) * z j = (d.proposal pos).value d.explained i := by
  unfold Spec.Proposal.value CFData.proposal CFData.explained
  cases h : pos i with
  | none =>
    simp only [Option.map_none, Option.getD_none]
    rw [sum_eq_zero]
    · ring
    · intro j hj; rw [hz j (mem_range.mp hj), h]; simp
  | some l =>
    have hl := hlt l h
    simp only [Option.map_some, Option.getD_some]
    rw [sum_eq_single l]
    · rw [hz l hl, h, if_pos rfl]; unfold CFData.metric; ring
    · intro j hj hjl; rw [hz j (mem_range.mp hj), h, if_neg]
      · ring
      · intro h'; injection h' with h'; exact hjl h'.symm
    · intro h'; exact absurd (mem_range.mpr hl) h'

theorem CFPos.value {d : CFData} {v : CFVars} {pos : ℕ → Option ℕ} (h : CFPos d v pos) (hp : cfProximity d v) {i : ℕ} (hi : i < d.p) :
    v.xp i = (d.proposal pos).value d.explained i := by
  rw [(hp i hi).2, value_sum (h.lt i hi)]
  intro j hj
  rw [h.z i hi j hj]; split_ifs <;> simp

theorem CFPos.activation {d : CFData} {v : CFVars} {pos : ℕ → Option ℕ} (h : CFPos d v pos) (hp : cfProximity d v) :
    cfActivation d v = (d.proposal pos).score d.explained := by
  unfold cfActivation Spec.Proposal.score
  congr 1
  exact sum_congr rfl fun i hi => by rw [h.value hp (mem_range.mp hi)]; rfl

theorem zip_filterMap_map {β γ : Type*} (l : List β) (e : β) (g : ℕ → Bool) (f : β → γ) :
    (l.zip ((List.range l.length).map g)).filterMap (fun q => if q.2 then some (f q.1) else none) =
      ((List.range l.length).filter g).map fun j => f (l.getD j e) := by
  have h1 : l.zip ((List.range l.length).map g) = (List.range l.length).map fun j => (l.getD j e, g j) := by
    apply List.ext_getElem
    · simp
    · intro i hi hi'
      simp only [List.length_map, List.length_range] at hi'
      simp [List.getD, hi']
  rw [h1, List.filterMap_map]
  induction List.range l.length with
  | nil => rfl
  | cons a r ih =>
    rw [List.filterMap_cons, List.filter_cons]
    by_cases ha : g a
    · simp only [Function.comp, ha, if_true, List.map_cons]; rw [← ih]; rfl
    · simp only [Function.comp, ha]; exact ih

theorem CFPos.indices {d : CFData} {m : CFMulti} {k : ℕ} {pos : ℕ → Option ℕ} (h : CFPos d (m.v k) pos) {i : ℕ} (hi : i < d.p) :
    (cfReport d (cfSolution d m k)).1 i = (((d.proposal pos) i).map Prod.fst).toList := by
  unfold cfReport cfSolution
  simp only
  unfold CFData.nbins
  rw [zip_filterMap_map _ (0, 0)]
  unfold CFData.proposal
  have hz := h.z i hi
  have hlt := h.lt i hi
  unfold CFData.nbins at hz hlt
  cases hp : pos i with
  | none =>
    simp only [Option.map_none, Option.toList_none, List.map_eq_nil_iff, List.filter_eq_nil_iff, List.mem_range]
    intro j hj
    rw [hz j hj, hp]; simp
  | some l =>
    have hl := hlt l hp
    have : (List.range (d.cands i).length).filter (fun j => (m.v k).z i j != 0) = [l] := by
      rw [List.filter_congr (q := fun j => j == l), List.filter_beq, List.count_eq_one_of_mem List.nodup_range (List.mem_range.mpr hl)]
      · rfl
      · intro j hj
        rw [hz j (List.mem_range.mp hj), hp]
        by_cases hjl : l = j
        · subst hjl; simp
        · have : ¬ j = l := fun h => hjl h.symm
          simp [hjl, this]
    rw [this]; simp

theorem CFPos.report_score {d : CFData} {m : CFMulti} {k : ℕ} {pos : ℕ → Option ℕ} (h : CFPos d (m.v k) pos) :
    (cfReport d (cfSolution d m k)).2 = (d.proposal pos).score d.explained := by
  unfold cfReport Spec.Proposal.score
  simp only
  rw [add_comm]
  congr 1
  refine sum_congr rfl fun i hi => ?_
  have hi := mem_range.mp hi
  rw [value_sum (h.lt i hi)]
  · rfl
  · intro j hj
    have : (cfSolution d m k i).getD j false = ((m.v k).z i j != 0) := by
      unfold cfSolution
      simp [List.getD, hj]
    rw [this, h.z i hi j hj]
    split_ifs with h1 h2 h2 <;> simp_all

theorem proposal_some {d : CFData} {pos : ℕ → Option ℕ} {i : ℕ} : (d.proposal pos i).isSome = (pos i).isSome := by
  unfold CFData.proposal; simp

theorem CFPos.valid {d : CFData} {v : CFVars} {pos : ℕ → Option ℕ} (h : CFPos d v pos) : (d.proposal pos).IsValid d.explained := by
  intro i hi b hb
  unfold CFData.proposal at hb
  cases hp : pos i with
  | none => rw [hp] at hb; simp at hb
  | some j =>
    rw [hp] at hb
    simp only [Option.map_some, Option.some.injEq] at hb
    have := h.lt i hi j hp
    unfold CFData.nbins at this
    rw [← hb]
    show _ ∈ d.cands i
    rw [List.getD, List.getElem?_eq_getElem this]; simp

theorem CFPos.card {d : CFData} {v : CFVars} {pos : ℕ → Option ℕ} (h : CFPos d v pos) :
    (((d.proposal pos).changed d.p).card : ℤ) = ∑ i ∈ range d.p, v.a i := by
  unfold Spec.Proposal.changed
  rw [sum_congr rfl (fun i hi => h.a i (mem_range.mp hi)), card_filter]
  push_cast
  exact sum_congr rfl fun i _ => by rw [proposal_some]

theorem CFPos.non {d : CFData} {v : CFVars} {pos : ℕ → Option ℕ} (h : CFPos d v pos) {i : ℕ} (ha : v.a i = 0) : d.proposal pos i = none := by
  by_cases hi : i < d.p
  · have := h.a i hi
    rw [ha] at this
    unfold CFData.proposal
    cases hp : pos i with
    | none => rfl
    | some j => rw [hp] at this; simp at this
  · unfold CFData.proposal; rw [h.out i (by omega)]; rfl

end OptBinning
