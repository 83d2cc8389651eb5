import Verif.Lemmas.TableDiv
import Mathlib.Data.List.GetD

/-! # Gini, KS, HHI, quality score -/
namespace OptBinning
open Spec (Row events nonevents rate concordance)

/-- Column sums as real numbers. -/
noncomputable def evSum (l : List Row) : ℝ := (l.map fun r => (r.event : ℝ)).sum
noncomputable def neSum (l : List Row) : ℝ := (l.map fun r => (r.nonevent : ℝ)).sum

/-- The sum of line 78 as a recursion. -/
noncomputable def giniRec (acc : ℝ) : List Row → ℝ
  | [] => 0
  | r :: l => (r.event : ℝ) * ((r.nonevent : ℝ) + 2 * acc) + giniRec (acc + r.nonevent) l

theorem gini_dot (l : List Row) (acc : ℝ) :
    dot (l.map fun r => (r.event : ℝ)) (List.zipWith (· + ·) (l.map fun r => (r.nonevent : ℝ))
      ((2 * acc) :: (cumsumFrom acc (l.map fun r => (r.nonevent : ℝ)).dropLast).map (2 * ·))) = giniRec acc l := by
  induction l generalizing acc with
  | nil => simp [dot, giniRec]
  | cons a l ih =>
    cases l with
    | nil => simp [dot, giniRec]
    | cons b l =>
      have := ih (acc + a.nonevent)
      simp only [dot, List.map_cons, giniRec, List.zipWith_cons_cons, List.sum_cons, List.dropLast_cons_cons,
        cumsumFrom] at this ⊢
      rw [this]

theorem giniRec_acc (l : List Row) (acc : ℝ) : giniRec acc l = 2 * acc * evSum l + giniRec 0 l := by
  induction l generalizing acc with
  | nil => simp [giniRec, evSum]
  | cons a l ih =>
    simp only [giniRec, evSum, List.map_cons, List.sum_cons] at *
    rw [ih, ih (0 + _)]; ring

theorem giniRec_nonneg (l : List Row) (acc : ℝ) (h : 0 ≤ acc) : 0 ≤ giniRec acc l := by
  induction l generalizing acc with
  | nil => simp [giniRec]
  | cons a l ih =>
    have := ih (acc + a.nonevent) (by positivity)
    simp only [giniRec]; positivity

/-- Weight of a pair of rows in the concordance. -/
noncomputable def pairC (a b : Row) : ℝ :=
  (a.event : ℝ) * (b.nonevent : ℝ) * (if rate b < rate a then 1 else if rate a < rate b then -1 else 0)

theorem concordance_eq (t : List Row) : concordance t = (t.map fun a => (t.map fun b => pairC a b).sum).sum := rfl

theorem concordance_perm {s t : List Row} (h : s.Perm t) : concordance s = concordance t := by
  rw [concordance_eq, concordance_eq]
  have : ∀ a, (s.map fun b => pairC a b).sum = (t.map fun b => pairC a b).sum := fun a => (h.map _).sum_eq
  simp only [this]
  exact (h.map _).sum_eq

theorem concordance_filter (t : List Row) :
    concordance (t.filter fun r => decide (0 < r.event + r.nonevent)) = concordance t := by
  rw [concordance_eq, concordance_eq, filter_map_sum]
  congr 1
  apply List.map_congr_left
  intro a _
  rw [filter_map_sum]
  by_cases ha : 0 < a.event + a.nonevent
  · simp only [ha, decide_true, if_true]
    congr 1
    apply List.map_congr_left
    intro b _
    by_cases hb : 0 < b.event + b.nonevent
    · simp [hb]
    · have : b.nonevent = 0 := by omega
      simp [pairC, this]
  · have : a.event = 0 := by omega
    simp only [ha, decide_false, Bool.false_eq_true, if_false]
    symm
    apply List.sum_eq_zero
    simp [pairC, this]

theorem pairC_self (a : Row) : pairC a a = 0 := by simp [pairC]

/-- Rows with records. -/
def Nonempty' (r : Row) : Prop := 0 < r.event + r.nonevent

theorem rate_cmp {a b : Row} (ha : Nonempty' a) (hb : Nonempty' b) :
    (rate b < rate a ↔ (b.event : ℝ) * a.nonevent < a.event * b.nonevent) := by
  have ha' : (0 : ℝ) < a.event + a.nonevent := by unfold Nonempty' at ha; exact_mod_cast ha
  have hb' : (0 : ℝ) < b.event + b.nonevent := by unfold Nonempty' at hb; exact_mod_cast hb
  unfold rate
  rw [div_lt_div_iff₀ hb' ha']
  constructor <;> intro h <;> nlinarith

theorem ner_le {a b : Row} (ha : Nonempty' a) (hb : Nonempty' b) (h : nonEventRate a ≤ nonEventRate b) :
    (b.event : ℝ) * a.nonevent ≤ a.event * b.nonevent := by
  have ha' : (0 : ℝ) < a.event + a.nonevent := by unfold Nonempty' at ha; exact_mod_cast ha
  have hb' : (0 : ℝ) < b.event + b.nonevent := by unfold Nonempty' at hb; exact_mod_cast hb
  unfold nonEventRate at h
  rw [div_le_div_iff₀ ha' hb'] at h
  nlinarith

theorem pairC_add {a b : Row} (ha : Nonempty' a) (hb : Nonempty' b) (h : nonEventRate a ≤ nonEventRate b) :
    pairC a b + pairC b a = a.event * b.nonevent - b.event * a.nonevent := by
  have hle := ner_le ha hb h
  have h1 := rate_cmp ha hb
  have h2 := rate_cmp hb ha
  unfold pairC
  by_cases hlt : (b.event : ℝ) * a.nonevent < a.event * b.nonevent
  · have r1 := h1.mpr hlt
    rw [if_pos r1, if_neg (not_lt.mpr r1.le), if_pos r1]; ring
  · have heq : (b.event : ℝ) * a.nonevent = a.event * b.nonevent := le_antisymm hle (not_lt.mp hlt)
    have r1 : ¬ rate b < rate a := fun h => hlt (h1.mp h)
    have r2 : ¬ rate a < rate b := fun h => by have := h2.mp h; linarith
    rw [if_neg r1, if_neg r2, if_neg r2, if_neg r1]; linarith

theorem concordance_cons (a : Row) (l : List Row) :
    concordance (a :: l) = concordance l + (l.map fun b => pairC a b + pairC b a).sum := by
  rw [concordance_eq, concordance_eq]
  simp only [List.map_cons, List.sum_cons, pairC_self, List.sum_map_add]
  ring

theorem sum_lin (x y : ℝ) (l : List Row) :
    (l.map fun b => x * (b.nonevent : ℝ) - b.event * y).sum = x * neSum l - evSum l * y := by
  induction l with
  | nil => simp [neSum, evSum]
  | cons c l ih => simp only [neSum, evSum, List.map_cons, List.sum_cons] at *; rw [ih]; ring

theorem concordance_sorted (l : List Row) (hne : ∀ r ∈ l, Nonempty' r)
    (hs : l.Pairwise fun a b => nonEventRate a ≤ nonEventRate b) :
    concordance l = evSum l * neSum l - giniRec 0 l ∧ 0 ≤ concordance l := by
  induction l with
  | nil => simp [concordance, evSum, neSum, giniRec]
  | cons a l ih =>
    rw [List.pairwise_cons] at hs
    obtain ⟨e, hnn⟩ := ih (fun r hr => hne r (by simp [hr])) hs.2
    rw [concordance_cons]
    have hp : ∀ b ∈ l, pairC a b + pairC b a = a.event * b.nonevent - b.event * a.nonevent := fun b hb =>
      pairC_add (hne a (by simp)) (hne b (by simp [hb])) (hs.1 b hb)
    constructor
    · rw [List.map_congr_left hp, e]
      simp only [giniRec, giniRec_acc l (0 + _)]
      have : (l.map fun b => (a.event : ℝ) * b.nonevent - b.event * a.nonevent).sum
          = a.event * neSum l - evSum l * a.nonevent := by
        exact sum_lin _ _ _
      rw [this]
      simp only [evSum, neSum, List.map_cons, List.sum_cons]; ring
    · apply add_nonneg hnn
      apply List.sum_nonneg
      simp only [List.mem_map, forall_exists_index, and_imp, forall_apply_eq_imp_iff₂]
      intro b hb
      rw [hp b hb]
      have := ner_le (hne a (by simp)) (hne b (by simp [hb])) (hs.1 b hb)
      linarith

theorem evSum_filter (t : List Row) : evSum (t.filter fun r => decide (0 < r.event + r.nonevent)) = (events t : ℝ) := by
  rw [events_eq, ← cast_sum_map, evSum, filter_map_sum]
  congr 1
  apply List.map_congr_left
  intro r _
  by_cases h : 0 < r.event + r.nonevent
  · simp [h]
  · have : r.event = 0 := by omega
    simp [this]

theorem neSum_filter (t : List Row) : neSum (t.filter fun r => decide (0 < r.event + r.nonevent)) = (nonevents t : ℝ) := by
  rw [nonevents_eq, ← cast_sum_map, neSum, filter_map_sum]
  congr 1
  apply List.map_congr_left
  intro r _
  by_cases h : 0 < r.event + r.nonevent
  · simp [h]
  · have : r.nonevent = 0 := by omega
    simp [this]

theorem gini_eq (sort) (hsort : IsArgsort sort) (t : List Row) (h : Spec.TwoClasses t) :
    gini sort t = concordance t / ((events t : ℝ) * (nonevents t : ℝ)) := by
  have h1 : (0 : ℝ) < events t := by exact_mod_cast h.1
  have h2 : (0 : ℝ) < nonevents t := by exact_mod_cast h.2
  rw [← concordance_filter t]
  have e1 := evSum_filter t
  have e2 := neSum_filter t
  unfold gini
  have hne : ∀ r ∈ t.filter (fun r => decide (0 < r.event + r.nonevent)), Nonempty' r := by
    intro r hr; simpa [Nonempty'] using (List.mem_filter.mp hr).2
  generalize t.filter (fun r => decide (0 < r.event + r.nonevent)) = kept at *
  by_cases hk : kept.length ≤ 1
  · rw [if_pos hk]
    have : concordance kept = 0 := by
      match kept, hk with
      | [], _ => simp [concordance]
      | [a], _ => simp [concordance]
    rw [this]; simp
  · rw [if_neg hk]
    obtain ⟨hp, hs⟩ := hsort kept
    obtain ⟨hc, -⟩ := concordance_sorted (sort kept) (fun r hr => hne r (hp.mem_iff.mp hr)) hs
    have d := gini_dot (sort kept) 0
    rw [mul_zero] at d
    simp only
    rw [d]
    change 1 - giniRec 0 (sort kept) / (evSum kept * neSum kept) = _
    have f1 : evSum (sort kept) = evSum kept := (hp.map _).sum_eq
    have f2 : neSum (sort kept) = neSum kept := (hp.map _).sum_eq
    rw [← concordance_perm hp, hc, f1, f2, e1, e2]
    field_simp

theorem gini_range (sort) (hsort : IsArgsort sort) (t : List Row) (h : Spec.TwoClasses t) :
    0 ≤ gini sort t ∧ gini sort t ≤ 1 := by
  have h1 : (0 : ℝ) < events t := by exact_mod_cast h.1
  have h2 : (0 : ℝ) < nonevents t := by exact_mod_cast h.2
  rw [gini_eq sort hsort t h, ← concordance_filter t]
  have e1 := evSum_filter t
  have e2 := neSum_filter t
  have hne : ∀ r ∈ t.filter (fun r => decide (0 < r.event + r.nonevent)), Nonempty' r := by
    intro r hr; simpa [Nonempty'] using (List.mem_filter.mp hr).2
  generalize t.filter (fun r => decide (0 < r.event + r.nonevent)) = kept at *
  obtain ⟨hp, hs⟩ := hsort kept
  obtain ⟨hc, hnn⟩ := concordance_sorted (sort kept) (fun r hr => hne r (hp.mem_iff.mp hr)) hs
  have f1 : evSum (sort kept) = evSum kept := (hp.map _).sum_eq
  have f2 : neSum (sort kept) = neSum kept := (hp.map _).sum_eq
  rw [concordance_perm hp] at hc hnn
  constructor
  · positivity
  · rw [div_le_one (by positivity), hc, f1, f2, e1, e2]
    have := giniRec_nonneg (sort kept) 0 le_rfl
    linarith

/-! ## KS -/

theorem cumsumFromReal_length {R : Type*} [Add R] (acc : R) (l : List R) : (cumsumFrom acc l).length = l.length := by
  induction l generalizing acc with
  | nil => rfl
  | cons a l ih => simp [cumsumFrom, ih]

theorem cumsumFromReal_getElem (acc : ℝ) (l : List ℝ) (k : ℕ) (h : k < (cumsumFrom acc l).length) :
    (cumsumFrom acc l)[k] = acc + (l.take (k + 1)).sum := by
  induction l generalizing acc k with
  | nil => simp [cumsumFrom] at h
  | cons a l ih =>
    cases k with
    | zero => simp [cumsumFrom]
    | succ k =>
      simp only [cumsumFrom, List.getElem_cons_succ, List.take_succ_cons, List.sum_cons]
      rw [ih]; ring

theorem foldr_max_isGreatest (l : List ℝ) (h : ∀ a ∈ l, 0 ≤ a) : IsGreatest {x | x = 0 ∨ x ∈ l} (l.foldr max 0) := by
  induction l with
  | nil => simp [IsGreatest, upperBounds]
  | cons a l ih =>
    obtain ⟨h1, h2⟩ := ih fun b hb => h b (by simp [hb])
    constructor
    · simp only [List.foldr_cons, Set.mem_ofPred_eq, List.mem_cons]
      rcases le_total a (l.foldr max 0) with h | h
      · rw [max_eq_right h]; rcases h1 with h1 | h1
        · exact Or.inl h1
        · exact Or.inr (Or.inr h1)
      · rw [max_eq_left h]; simp
    · rintro x (hx | hx)
      · exact le_trans (h2 (Or.inl hx)) (le_max_right _ _)
      · rcases List.mem_cons.mp hx with rfl | hx
        · exact le_max_left _ _
        · exact le_trans (h2 (Or.inr hx)) (le_max_right _ _)

theorem take_share_sum (t : List Row) (f : Row → ℕ) (te : ℝ) (k : ℕ) :
    ((t.map fun r => (f r : ℝ) / te).take k).sum = ((((t.take k).map f).sum : ℕ) : ℝ) / te := by
  rw [← List.map_take, ← cast_sum_map]
  simp only [div_eq_mul_inv]
  rw [List.sum_map_mul_right]

theorem ks_isGreatest (sort) (t : List Row) :
    IsGreatest {x | ∃ k ≤ t.length, x = Spec.cumulativeGap t k} (buildCore sort t).ks := by
  have e : {x | ∃ k ≤ t.length, x = Spec.cumulativeGap t k} =
      {x | x = 0 ∨ x ∈ (List.zipWith (· - ·) (cumsumFrom 0 (t.map fun r => (r.event : ℝ) / (events t : ℝ)))
        (cumsumFrom 0 (t.map fun r => (r.nonevent : ℝ) / (nonevents t : ℝ)))).map fun a => |a|} := by
    have hget : ∀ k (hk : k < t.length), Spec.cumulativeGap t (k + 1) =
        ((List.zipWith (· - ·) (cumsumFrom 0 (t.map fun r => (r.event : ℝ) / (events t : ℝ)))
        (cumsumFrom 0 (t.map fun r => (r.nonevent : ℝ) / (nonevents t : ℝ)))).map fun a => |a|)[k]'(by
          simp [cumsumFromReal_length, hk]) := by
      intro k hk
      simp only [List.getElem_map, List.getElem_zipWith, cumsumFromReal_getElem, take_share_sum, zero_add]
      rfl
    ext x
    simp only [Set.mem_ofPred_eq]
    constructor
    · rintro ⟨k, hk, rfl⟩
      cases k with
      | zero => left; simp [Spec.cumulativeGap, events, nonevents, Spec.union]
      | succ k => right; rw [hget k hk]; exact List.getElem_mem _
    · rintro (rfl | hx)
      · exact ⟨0, Nat.zero_le _, by simp [Spec.cumulativeGap, events, nonevents, Spec.union]⟩
      · obtain ⟨k, hk, rfl⟩ := List.getElem_of_mem hx
        have hk' : k < t.length := by simpa [cumsumFromReal_length] using hk
        exact ⟨k + 1, hk', (hget k hk').symm⟩
  rw [e]
  have : (buildCore sort t).ks = ((List.zipWith (· - ·) (cumsumFrom 0 (t.map fun r => (r.event : ℝ) / (events t : ℝ)))
        (cumsumFrom 0 (t.map fun r => (r.nonevent : ℝ) / (nonevents t : ℝ)))).map fun a => |a|).foldr max 0 := by
    simp only [buildCore, maxAbs, cast_sum_map, events_eq, nonevents_eq]
  rw [this]
  apply foldr_max_isGreatest
  intro a ha
  obtain ⟨b, -, rfl⟩ := List.mem_map.mp ha
  exact abs_nonneg b

theorem sum_take_le (t : List Row) (f : Row → ℕ) (k : ℕ) : ((t.take k).map f).sum ≤ (t.map f).sum := by
  conv_rhs => rw [← List.take_append_drop k t, List.map_append, List.sum_append]
  exact Nat.le_add_right _ _

theorem cumulativeGap_range (t : List Row) (k : ℕ) : 0 ≤ Spec.cumulativeGap t k ∧ Spec.cumulativeGap t k ≤ 1 := by
  refine ⟨abs_nonneg _, ?_⟩
  have h1 : ((events (t.take k) : ℕ) : ℝ) / (events t : ℝ) ≤ 1 :=
    div_le_one_of_le₀ (by exact_mod_cast sum_take_le t Row.event k) (by positivity)
  have h2 : ((nonevents (t.take k) : ℕ) : ℝ) / (nonevents t : ℝ) ≤ 1 :=
    div_le_one_of_le₀ (by exact_mod_cast sum_take_le t Row.nonevent k) (by positivity)
  have h3 : 0 ≤ ((events (t.take k) : ℕ) : ℝ) / (events t : ℝ) := by positivity
  have h4 : 0 ≤ ((nonevents (t.take k) : ℕ) : ℝ) / (nonevents t : ℝ) := by positivity
  unfold Spec.cumulativeGap
  rw [abs_le]; constructor <;> linarith

/-! ## HHI -/

theorem hhi_range (s : List ℝ) (h0 : ∀ a ∈ s, 0 ≤ a) (h1 : s.sum = 1) : 1 / (s.length : ℝ) ≤ hhi s ∧ hhi s ≤ 1 := by
  have hlen : s ≠ [] := by rintro rfl; simp at h1
  have hpos : (0 : ℝ) < s.length := by exact_mod_cast List.length_pos_iff.mpr hlen
  constructor
  · have key : ∀ c : ℝ, 2 * c * s.sum - s.length * c ^ 2 ≤ hhi s := by
      intro c
      unfold hhi
      clear h0 h1 hlen hpos
      induction s with
      | nil => simp
      | cons a s ih =>
        simp only [List.sum_cons, List.map_cons, List.length_cons]
        push_cast
        nlinarith [sq_nonneg (a - c)]
    have := key (1 / s.length)
    rw [h1] at this
    have e : 2 * (1 / (s.length : ℝ)) * 1 - s.length * (1 / (s.length : ℝ)) ^ 2 = 1 / s.length := by
      field_simp; ring
    rwa [e] at this
  · have : ∀ a ∈ s, a ≤ 1 := fun a ha => h1 ▸ List.single_le_sum h0 a ha
    unfold hhi
    calc (s.map fun a => a ^ 2).sum ≤ (s.map fun a => a).sum := by
          apply List.sum_le_sum
          intro a ha
          nlinarith [h0 a ha, this a ha]
      _ = 1 := by simpa using h1

theorem hhiNorm_range (s : List ℝ) (h0 : ∀ a ∈ s, 0 ≤ a) (h1 : s.sum = 1) : 0 ≤ hhiNorm s ∧ hhiNorm s ≤ 1 := by
  obtain ⟨a, b⟩ := hhi_range s h0 h1
  have hlen : s ≠ [] := by rintro rfl; simp at h1
  unfold hhiNorm
  split_ifs with h
  · norm_num
  · have h2 : 2 ≤ s.length := by
      have := List.length_pos_iff.mpr hlen; omega
    have h2 : (2 : ℝ) ≤ s.length := by exact_mod_cast h2
    have h3 : 1 / (s.length : ℝ) < 1 := by rw [div_lt_one (by linarith)]; linarith
    simp only
    constructor
    · apply div_nonneg <;> linarith
    · rw [div_le_one (by linarith)]; linarith

/-! ## Quality score -/

theorem mul_exp_le_one (t : ℝ) : t * Real.exp (1 / 2 * (1 - t ^ 2)) ≤ 1 := by
  have h := Real.add_one_le_exp (t ^ 2 - 1)
  have e : Real.exp (t ^ 2 - 1) = (Real.exp (1 / 2 * (1 - t ^ 2)))⁻¹ ^ 2 := by
    rw [← Real.exp_neg, ← Real.exp_nat_mul]; congr 1; push_cast; ring
  have hp := Real.exp_pos (1 / 2 * (1 - t ^ 2))
  rw [e] at h
  generalize Real.exp (1 / 2 * (1 - t ^ 2)) = x at *
  have : (t * x) ^ 2 ≤ 1 := by
    have : x⁻¹ ^ 2 * x ^ 2 = 1 := by field_simp
    nlinarith [sq_nonneg x]
  nlinarith

theorem prod_range (p : List ℝ) (hp : ∀ a ∈ p, 0 ≤ a ∧ a ≤ 1) :
    0 ≤ (p.map fun a => 1 - a).prod ∧ (p.map fun a => 1 - a).prod ≤ 1 := by
  induction p with
  | nil => simp
  | cons a p ih =>
    obtain ⟨h1, h2⟩ := ih fun b hb => hp b (by simp [hb])
    obtain ⟨h3, h4⟩ := hp a (by simp)
    simp only [List.map_cons, List.prod_cons]
    constructor
    · apply mul_nonneg _ h1; linarith
    · nlinarith

theorem qualityScore_range {iv : ℝ} {p : List ℝ} {h : ℝ} (hiv : 0 ≤ iv) (hp : ∀ a ∈ p, 0 ≤ a ∧ a ≤ 1) (h0 : 0 ≤ h)
    (h1 : h ≤ 1) : 0 ≤ qualityScore iv p h ∧ qualityScore iv p h ≤ 1 := by
  obtain ⟨p1, p2⟩ := prod_range p hp
  have hc : 0 < qualityC := by unfold qualityC; norm_num
  have s1 : iv * Real.exp (1 / 2 * (1 - (iv / qualityC) ^ 2)) / qualityC ≤ 1 := by
    have := mul_exp_le_one (iv / qualityC)
    rwa [div_mul_eq_mul_div] at this
  have s0 : 0 ≤ iv * Real.exp (1 / 2 * (1 - (iv / qualityC) ^ 2)) / qualityC := by positivity
  unfold qualityScore
  constructor
  · apply mul_nonneg (mul_nonneg s0 p1); linarith
  · exact mul_le_one₀ (mul_le_one₀ s1 p1 p2) (by linarith) (by linarith)

theorem continuousQualityScore_range {w : ℝ} {p : List ℝ} {h : ℝ} (hw : 0 ≤ w) (hp : ∀ a ∈ p, 0 ≤ a ∧ a ≤ 1) (h0 : 0 ≤ h)
    (h1 : h ≤ 1) : 0 ≤ continuousQualityScore w p h ∧ continuousQualityScore w p h ≤ 1 := by
  obtain ⟨p1, p2⟩ := prod_range p hp
  have s : 0 ≤ (if w = 0 then 0 else max (1 - 1 / w) 0) ∧ (if w = 0 then 0 else max (1 - 1 / w) 0) ≤ (1 : ℝ) := by
    split_ifs
    · norm_num
    · refine ⟨le_max_right _ _, max_le ?_ zero_le_one⟩
      have : 0 ≤ 1 / w := by positivity
      linarith
  unfold continuousQualityScore
  constructor
  · apply mul_nonneg (mul_nonneg s.1 p1); linarith
  · exact mul_le_one₀ (mul_le_one₀ s.2 p1 p2) (by linarith) (by linarith)

end OptBinning
