import Verif.Model.Gini
import Verif.Spec.Gini
import Mathlib.Tactic.Ring
import Mathlib.Tactic.Linarith
import Mathlib.Tactic.LinearCombination
import Mathlib.Data.List.TakeWhile
import Mathlib.Tactic.FieldSimp
import Mathlib.Algebra.BigOperators.Group.List.Basic
import Mathlib.Algebra.Order.BigOperators.Group.List

/-! # C97: the Gini coefficient of the metrics module -/
namespace OptBinning

variable {α : Type*} [LinearOrder α]

/-! ### collinear points do not matter -/

theorem trapezoids_keep (t : List (ℚ × ℚ)) : ∀ (o a b : ℚ × ℚ) (k : ℚ), b.1 - o.1 = k * (b.1 - a.1) → b.2 - o.2 = k * (b.2 - a.2) →
    trapezoids (o :: keepCorners a b t) = trapezoids (o :: b :: t) := by
  induction t with
  | nil => intro o a b k _ _; rfl
  | cons c t ih =>
    intro o a b k h1 h2
    rw [keepCorners]
    split
    · rename_i h
      rw [ih o b c (k + 1) (by linear_combination h1 - k * h.1) (by linear_combination h2 - k * h.2)]
      simp only [trapezoids]
      have e1 : c.1 - b.1 = b.1 - a.1 := by linear_combination h.1
      have e2 : c.2 - b.2 = b.2 - a.2 := by linear_combination h.2
      have : (c.1 - b.1) * (b.2 - o.2) = (c.2 - b.2) * (b.1 - o.1) := by rw [h1, h2, e1, e2]; ring
      linear_combination (-1 / 2 : ℚ) * this
    · simp only [trapezoids]
      rw [ih b b c 1 (by ring) (by ring)]
      simp only [trapezoids]

theorem trapezoids_drop (o : ℚ × ℚ) (l : List (ℚ × ℚ)) : trapezoids (o :: dropIntermediate l) = trapezoids (o :: l) := by
  match l with
  | [] => rfl
  | [a] => rfl
  | a :: b :: t =>
    simp only [dropIntermediate, trapezoids]
    rw [trapezoids_keep t a a b 1 (by ring) (by ring)]
    simp only [trapezoids]

theorem trapezoids_scale (u v : ℚ) (l : List (ℚ × ℚ)) :
    trapezoids (l.map fun q => (q.1 / u, q.2 / v)) = trapezoids l / (u * v) := by
  match l with
  | [] => simp [trapezoids]
  | [a] => simp [trapezoids]
  | a :: b :: t =>
    have ih := trapezoids_scale u v (b :: t)
    simp only [List.map_cons, trapezoids] at ih ⊢
    rw [ih]
    ring

/-! ### the area under the curve counts pairs -/

/-- Twice the number of events before `b`, plus the number of events with the score of `b`; `0` for events. -/
def pairWeight (l : List (α × Bool)) (b : α × Bool) : ℕ :=
  if b.2 then 0 else 2 * (l.countP fun a => a.2 && decide (b.1 < a.1)) + l.countP fun a => a.2 && decide (a.1 = b.1)

theorem rocCounts_group (g rest : List (α × Bool)) (v : α) : ∀ (f t : ℕ), g ≠ [] → (∀ x ∈ g, x.1 = v) → (∀ x ∈ rest, x.1 ≠ v) →
    rocCounts f t (g ++ rest) = (f + g.countP (fun x => !x.2), t + g.countP (fun x => x.2)) ::
      rocCounts (f + g.countP (fun x => !x.2)) (t + g.countP (fun x => x.2)) rest := by
  induction g with
  | nil => intro f t h; exact absurd rfl h
  | cons x g ih =>
    intro f t _ hg hr
    rw [List.cons_append, rocCounts]
    have e1 : (if x.2 then f else f + 1) + g.countP (fun x => !x.2) = f + (x :: g).countP (fun x => !x.2) := by
      cases h : x.2 <;> simp [List.countP_cons, h]; omega
    have e2 : (if x.2 then t + 1 else t) + g.countP (fun x => x.2) = t + (x :: g).countP (fun x => x.2) := by
      cases h : x.2 <;> simp [List.countP_cons, h]; omega
    cases g with
    | nil =>
      have hh : rest.head?.map Prod.fst ≠ some x.1 := by
        intro h
        obtain ⟨y, hy, hyx⟩ := Option.map_eq_some_iff.1 h
        exact hr y (List.mem_of_mem_head? hy) (hyx.trans (hg x (by simp)))
      simp only [List.nil_append, List.countP_nil, Nat.add_zero] at *
      rw [if_neg hh, e1, e2]
    | cons y g =>
      have hh : ((y :: g) ++ rest).head?.map Prod.fst = some x.1 := by
        simp [hg x (by simp), hg y (by simp)]
      rw [if_pos hh, ih _ _ (by simp) (fun z hz => hg z (by simp [hz])) hr, e1, e2]

theorem sum_const_nonevents (g : List (α × Bool)) (w : α × Bool → ℕ) (c : ℕ) (h : ∀ b ∈ g, w b = if b.2 then 0 else c) :
    (g.map w).sum = g.countP (fun x => !x.2) * c := by
  induction g with
  | nil => simp
  | cons x g ih =>
    rw [List.map_cons, List.sum_cons, ih fun b hb => h b (by simp [hb]), h x (by simp)]
    cases hx : x.2 <;> simp [List.countP_cons, hx]
    ring

theorem area_counts : ∀ (n : ℕ) (l : List (α × Bool)), l.length ≤ n → l.Pairwise (fun a b => b.1 ≤ a.1) → ∀ f t : ℕ,
    2 * trapezoids (((f : ℚ), (t : ℚ)) :: (rocCounts f t l).map fun q => ((q.1 : ℚ), (q.2 : ℚ))) =
      (((l.map fun b => if b.2 then 0 else 2 * t + pairWeight l b).sum : ℕ) : ℚ) := by
  intro n
  induction n with
  | zero =>
    intro l hl _ f t
    rw [List.length_eq_zero_iff.1 (Nat.le_zero.1 hl)]
    simp [rocCounts, trapezoids]
  | succ n ih =>
    intro l hl hs f t
    match l with
    | [] => simp [rocCounts, trapezoids]
    | x :: xs =>
      set g := (x :: xs).takeWhile (fun y => decide (y.1 = x.1)) with hg
      set rest := (x :: xs).dropWhile (fun y => decide (y.1 = x.1)) with hrest
      have hsplit : g ++ rest = x :: xs := List.takeWhile_append_dropWhile
      have hgne : g ≠ [] := by rw [hg, List.takeWhile_cons_of_pos (by simp)]; simp
      have hgv : ∀ y ∈ g, y.1 = x.1 := fun y hy => by simpa using List.mem_takeWhile_imp hy
      rw [← hsplit] at hs hl
      have hs' := List.pairwise_append.1 hs
      have hlt : ∀ y ∈ rest, y.1 < x.1 := by
        obtain ⟨z, hz⟩ := List.exists_mem_of_ne_nil g hgne
        have hle : ∀ y ∈ rest, y.1 ≤ x.1 := fun y hy => (hgv z hz) ▸ hs'.2.2 z hz y hy
        cases hr : rest with
        | nil => simp
        | cons w ws =>
          have hw : w.1 ≠ x.1 := by
            have h0 : (x :: xs).dropWhile (fun y => decide (y.1 = x.1)) ≠ [] := by rw [← hrest, hr]; simp
            have := List.head_dropWhile_not (p := fun y : α × Bool => decide (y.1 = x.1)) h0
            have e : ((x :: xs).dropWhile (fun y => decide (y.1 = x.1))).head h0 = w := by
              simp only [← hrest, hr, List.head_cons]
            rw [e] at this
            simpa using this
          rw [hr] at hle hs'
          have hw' : w.1 < x.1 := lt_of_le_of_ne (hle w (by simp)) hw
          intro y hy
          rcases List.mem_cons.1 hy with rfl | hy'
          · exact hw'
          · exact lt_of_le_of_lt ((List.pairwise_cons.1 hs'.2.1).1 y hy') hw'
      have hlen : rest.length ≤ n := by
        have := List.length_pos_iff_ne_nil.2 hgne
        rw [List.length_append] at hl
        omega
      rw [← hsplit, rocCounts_group g rest x.1 f t hgne hgv fun y hy => (hlt y hy).ne, List.map_cons]
      have ih' := ih rest hlen hs'.2.1 (f + g.countP fun x => !x.2) (t + g.countP fun x => x.2)
      simp only [trapezoids]
      rw [mul_add, ih', List.map_append, List.sum_append]
      have c1 : (g.map fun b => if b.2 then 0 else 2 * t + pairWeight (g ++ rest) b).sum =
          g.countP (fun x => !x.2) * (2 * t + g.countP fun x => x.2) := by
        refine sum_const_nonevents g _ _ fun b hb => ?_
        cases hb2 : b.2
        · simp only [Bool.false_eq_true, if_false, pairWeight, hb2, List.countP_append, hgv b hb]
          have z1 : g.countP (fun a => a.2 && decide (x.1 < a.1)) = 0 := by
            rw [List.countP_eq_zero]
            intro a ha
            simp [hgv a ha]
          have z2 : rest.countP (fun a => a.2 && decide (x.1 < a.1)) = 0 := by
            rw [List.countP_eq_zero]
            intro a ha
            simp [(hlt a ha).le]
          have z3 : rest.countP (fun a => a.2 && decide (a.1 = x.1)) = 0 := by
            rw [List.countP_eq_zero]
            intro a ha
            simp [(hlt a ha).ne]
          have z4 : g.countP (fun a => a.2 && decide (a.1 = x.1)) = g.countP fun x => x.2 :=
            List.countP_congr fun a ha => by simp [hgv a ha]
          rw [z1, z2, z3, z4]
          ring
        · simp
      have c2 : (rest.map fun b => if b.2 then 0 else 2 * t + pairWeight (g ++ rest) b).sum =
          (rest.map fun b => if b.2 then 0 else 2 * (t + g.countP fun x => x.2) + pairWeight rest b).sum := by
        congr 1
        refine List.map_congr_left fun b hb => ?_
        cases hb2 : b.2
        · simp only [Bool.false_eq_true, if_false, pairWeight, hb2, List.countP_append]
          have z1 : g.countP (fun a => a.2 && decide (b.1 < a.1)) = g.countP fun x => x.2 :=
            List.countP_congr fun a ha => by simp [hgv a ha, hlt b hb]
          have z2 : g.countP (fun a => a.2 && decide (a.1 = b.1)) = 0 := by
            rw [List.countP_eq_zero]
            intro a ha
            simp [hgv a ha, (hlt b hb).ne']
          rw [z1, z2]
          ring
        · simp
      rw [c1, c2]
      push_cast
      ring

open Spec

set_option linter.unusedSectionVars false

theorem pairWeight_perm {l l' : List (α × Bool)} (h : l.Perm l') (b : α × Bool) : pairWeight l b = pairWeight l' b := by
  unfold pairWeight
  rw [h.countP_eq, h.countP_eq]

theorem sum_ite_add (l : List (α × Bool)) (u v w : α × Bool → ℕ) (h : ∀ b ∈ l, w b = 2 * u b + v b) :
    (l.map w).sum = 2 * (l.map u).sum + (l.map v).sum := by
  induction l with
  | nil => simp
  | cons x l ih =>
    simp only [List.map_cons, List.sum_cons]
    rw [ih fun b hb => h b (by simp [hb]), h x (by simp)]
    ring

/-- Pairs of an event and a non-event with the same score. -/
def tiedPairs (r : List (α × Bool)) : ℕ := (r.map fun b => r.countP fun a => a.2 && !b.2 && decide (a.1 = b.1)).sum

theorem pairs_total (r : List (α × Bool)) : concordant r + discordant r + tiedPairs r = scoredNonevents r * scoredEvents r := by
  have key : ∀ l : List (α × Bool), (l.map fun b => r.countP fun a => a.2 && !b.2 && decide (b.1 < a.1)).sum +
      (l.map fun b => r.countP fun a => a.2 && !b.2 && decide (a.1 < b.1)).sum +
      (l.map fun b => r.countP fun a => a.2 && !b.2 && decide (a.1 = b.1)).sum = scoredNonevents l * scoredEvents r := by
    intro l
    induction l with
    | nil => simp [scoredNonevents]
    | cons b l ih =>
      simp only [List.map_cons, List.sum_cons]
      have hb : (r.countP fun a => a.2 && !b.2 && decide (b.1 < a.1)) + (r.countP fun a => a.2 && !b.2 && decide (a.1 < b.1)) +
          (r.countP fun a => a.2 && !b.2 && decide (a.1 = b.1)) = if b.2 then 0 else scoredEvents r := by
        cases hb : b.2
        · simp only [Bool.not_false, Bool.and_true, Bool.false_eq_true, if_false, scoredEvents]
          clear ih
          induction r with
          | nil => simp
          | cons a r ih =>
            simp only [List.countP_cons]
            rcases lt_trichotomy a.1 b.1 with h | h | h
            · cases ha : a.2 <;> simp [h, h.not_gt, h.ne] <;> omega
            · cases ha : a.2 <;> simp [h] <;> omega
            · cases ha : a.2 <;> simp [h, h.not_gt, h.ne'] <;> omega
        · simp
      have hn : scoredNonevents (b :: l) = (if b.2 then 0 else 1) + scoredNonevents l := by
        cases hb : b.2 <;> simp [scoredNonevents, List.countP_cons, hb]; omega
      rw [hn, add_mul, ← ih]
      have : (if b.2 then 0 else 1) * scoredEvents r = if b.2 then 0 else scoredEvents r := by cases b.2 <;> simp
      rw [this, ← hb]
      ring
  exact key r

/-- **C97.** `gini` is defined exactly when both classes occur, and is then the excess of concordant over discordant pairs of
an event and a non-event, as a share of all such pairs. -/
theorem C97_gini (r : List (α × Bool)) (g : ℚ) : giniScore r = some g ↔ 0 < scoredEvents r ∧ 0 < scoredNonevents r ∧
    g = (((concordant r : ℕ) : ℚ) - ((discordant r : ℕ) : ℚ)) / (((scoredEvents r : ℕ) : ℚ) * ((scoredNonevents r : ℕ) : ℚ)) := by
  unfold giniScore
  by_cases h : r.countP (fun x => x.2) = 0 ∨ r.countP (fun x => !x.2) = 0
  · rw [if_pos h]
    simp only [reduceCtorEq, false_iff, scoredEvents, scoredNonevents]
    omega
  · rw [if_neg h]
    rw [not_or] at h
    have hE : 0 < scoredEvents r := Nat.pos_of_ne_zero h.1
    have hN : 0 < scoredNonevents r := Nat.pos_of_ne_zero h.2
    have hperm : (byScore r).Perm r := List.perm_insertionSort _ _
    have hsort : (byScore r).Pairwise fun a b => b.1 ≤ a.1 := by
      have : Std.Total (fun a b : α × Bool => b.1 ≤ a.1) := ⟨fun a b => le_total _ _⟩
      have : IsTrans (α × Bool) (fun a b => b.1 ≤ a.1) := ⟨fun a b c h1 h2 => le_trans h2 h1⟩
      exact List.pairwise_insertionSort _ _
    have area := area_counts _ (byScore r) le_rfl hsort 0 0
    have hw : ((byScore r).map fun b => if b.2 then 0 else 2 * 0 + pairWeight (byScore r) b).sum =
        2 * concordant r + tiedPairs r := by
      have e : ((byScore r).map fun b => if b.2 then 0 else 2 * 0 + pairWeight (byScore r) b) =
          (byScore r).map (pairWeight r) := by
        refine List.map_congr_left fun b _ => ?_
        rw [← pairWeight_perm hperm]
        unfold pairWeight
        cases b.2 <;> simp
      rw [e, (hperm.map _).sum_eq]
      refine sum_ite_add r _ _ _ fun b _ => ?_
      unfold pairWeight
      cases b.2 <;> simp
    have hcurve : trapezoids (rocCurve r) = trapezoids ((((0 : ℕ) : ℚ), ((0 : ℕ) : ℚ)) :: (rocCounts 0 0 (byScore r)).map
        fun q => ((q.1 : ℚ), (q.2 : ℚ))) / (((scoredNonevents r : ℕ) : ℚ) * ((scoredEvents r : ℕ) : ℚ)) := by
      simp only [rocCurve]
      rw [trapezoids_scale, trapezoids_drop]
      simp [scoredNonevents, scoredEvents]
    rw [hw] at area
    have ht := pairs_total r
    have hE' : ((scoredEvents r : ℕ) : ℚ) ≠ 0 := by positivity
    have hN' : ((scoredNonevents r : ℕ) : ℚ) ≠ 0 := by positivity
    have ht' : ((concordant r : ℕ) : ℚ) + ((discordant r : ℕ) : ℚ) + ((tiedPairs r : ℕ) : ℚ) =
        ((scoredNonevents r : ℕ) : ℚ) * ((scoredEvents r : ℕ) : ℚ) := by exact_mod_cast ht
    have val : 2 * trapezoids (rocCurve r) - 1 =
        (((concordant r : ℕ) : ℚ) - ((discordant r : ℕ) : ℚ)) / (((scoredEvents r : ℕ) : ℚ) * ((scoredNonevents r : ℕ) : ℚ)) := by
      rw [hcurve, ← mul_div_assoc, area]
      push_cast
      field_simp
      linear_combination ht'
    rw [val, Option.some.injEq]
    constructor
    · rintro rfl
      exact ⟨hE, hN, rfl⟩
    · rintro ⟨_, _, rfl⟩
      rfl

theorem sum_eq_zero_iff_nat (l : List ℕ) : l.sum = 0 ↔ ∀ x ∈ l, x = 0 := by
  induction l with
  | nil => simp
  | cons a l ih => simp [ih]

theorem discordant_zero (r : List (α × Bool)) : discordant r = 0 ↔ ∀ a ∈ r, ∀ b ∈ r, a.2 = true → b.2 = false → b.1 ≤ a.1 := by
  unfold discordant
  rw [sum_eq_zero_iff_nat]
  simp only [List.mem_map, forall_exists_index, and_imp, forall_apply_eq_imp_iff₂, List.countP_eq_zero, Bool.and_eq_true,
    Bool.not_eq_true', decide_eq_true_eq, not_and, not_lt]
  exact ⟨fun h a ha b hb h1 h2 => h b hb a ha h1 h2, fun h b hb a ha h1 h2 => h a ha b hb h1 h2⟩

theorem tied_zero (r : List (α × Bool)) : tiedPairs r = 0 ↔ ∀ a ∈ r, ∀ b ∈ r, a.2 = true → b.2 = false → a.1 ≠ b.1 := by
  unfold tiedPairs
  rw [sum_eq_zero_iff_nat]
  simp only [List.mem_map, forall_exists_index, and_imp, forall_apply_eq_imp_iff₂, List.countP_eq_zero, Bool.and_eq_true,
    Bool.not_eq_true', decide_eq_true_eq, not_and]
  exact ⟨fun h a ha b hb h1 h2 => h b hb a ha h1 h2, fun h b hb a ha h1 h2 => h a ha b hb h1 h2⟩

theorem concordant_zero (r : List (α × Bool)) : concordant r = 0 ↔ ∀ a ∈ r, ∀ b ∈ r, a.2 = true → b.2 = false → a.1 ≤ b.1 := by
  unfold concordant
  rw [sum_eq_zero_iff_nat]
  simp only [List.mem_map, forall_exists_index, and_imp, forall_apply_eq_imp_iff₂, List.countP_eq_zero, Bool.and_eq_true,
    Bool.not_eq_true', decide_eq_true_eq, not_and, not_lt]
  exact ⟨fun h a ha b hb h1 h2 => h b hb a ha h1 h2, fun h b hb a ha h1 h2 => h a ha b hb h1 h2⟩

/-- **C97.** The Gini coefficient lies between −1 and 1; it is 1 exactly if every event has a larger score than every
non-event, and −1 exactly if every event has a smaller one. -/
theorem C97_range (r : List (α × Bool)) (g : ℚ) (h : giniScore r = some g) :
    -1 ≤ g ∧ g ≤ 1 ∧ (g = 1 ↔ ∀ a ∈ r, ∀ b ∈ r, a.2 = true → b.2 = false → b.1 < a.1) ∧
    (g = -1 ↔ ∀ a ∈ r, ∀ b ∈ r, a.2 = true → b.2 = false → a.1 < b.1) := by
  obtain ⟨hE, hN, rfl⟩ := (C97_gini r g).1 h
  have ht := pairs_total r
  have ht' : ((concordant r : ℕ) : ℚ) + ((discordant r : ℕ) : ℚ) + ((tiedPairs r : ℕ) : ℚ) =
      ((scoredEvents r : ℕ) : ℚ) * ((scoredNonevents r : ℕ) : ℚ) := by rw [mul_comm]; exact_mod_cast ht
  have hpos : (0 : ℚ) < ((scoredEvents r : ℕ) : ℚ) * ((scoredNonevents r : ℕ) : ℚ) := by positivity
  have c0 : (0 : ℚ) ≤ ((concordant r : ℕ) : ℚ) := Nat.cast_nonneg _
  have d0 : (0 : ℚ) ≤ ((discordant r : ℕ) : ℚ) := Nat.cast_nonneg _
  have t0 : (0 : ℚ) ≤ ((tiedPairs r : ℕ) : ℚ) := Nat.cast_nonneg _
  refine ⟨?_, ?_, ?_, ?_⟩
  · rw [le_div_iff₀ hpos]; linarith
  · rw [div_le_iff₀ hpos]; linarith
  · rw [div_eq_one_iff_eq hpos.ne']
    constructor
    · intro e
      have h1 : discordant r = 0 := by
        have : ((discordant r : ℕ) : ℚ) = 0 := by linarith
        exact_mod_cast this
      have h2 : tiedPairs r = 0 := by
        have : ((tiedPairs r : ℕ) : ℚ) = 0 := by linarith
        exact_mod_cast this
      intro a ha b hb h3 h4
      exact lt_of_le_of_ne ((discordant_zero r).1 h1 a ha b hb h3 h4) ((tied_zero r).1 h2 a ha b hb h3 h4).symm
    · intro hall
      have h1 := (discordant_zero r).2 fun a ha b hb h3 h4 => (hall a ha b hb h3 h4).le
      have h2 := (tied_zero r).2 fun a ha b hb h3 h4 => (hall a ha b hb h3 h4).ne'
      rw [← ht', h1, h2]
      push_cast
      ring
  · rw [div_eq_iff hpos.ne']
    constructor
    · intro e
      have h1 : concordant r = 0 := by
        have : ((concordant r : ℕ) : ℚ) = 0 := by linarith
        exact_mod_cast this
      have h2 : tiedPairs r = 0 := by
        have : ((tiedPairs r : ℕ) : ℚ) = 0 := by linarith
        exact_mod_cast this
      intro a ha b hb h3 h4
      exact lt_of_le_of_ne ((concordant_zero r).1 h1 a ha b hb h3 h4) ((tied_zero r).1 h2 a ha b hb h3 h4)
    · intro hall
      have h1 := (concordant_zero r).2 fun a ha b hb h3 h4 => (hall a ha b hb h3 h4).le
      have h2 := (tied_zero r).2 fun a ha b hb h3 h4 => (hall a ha b hb h3 h4).ne
      rw [← ht', h1, h2]
      push_cast
      ring

variable {β : Type*} [LinearOrder β]

theorem counts_map (f : α → β) (r : List (α × Bool)) :
    scoredEvents (r.map fun x => (f x.1, x.2)) = scoredEvents r ∧ scoredNonevents (r.map fun x => (f x.1, x.2)) = scoredNonevents r := by
  simp [scoredEvents, scoredNonevents, List.countP_map, Function.comp_def]

theorem giniScore_congr {r : List (α × Bool)} {r' : List (β × Bool)} (hE : scoredEvents r' = scoredEvents r) (hN : scoredNonevents r' = scoredNonevents r)
    (hC : concordant r' = concordant r) (hD : discordant r' = discordant r) : giniScore r' = giniScore r := by
  cases e : giniScore r with
  | some g =>
    obtain ⟨h1, h2, h3⟩ := (C97_gini r g).1 e
    exact (C97_gini r' g).2 ⟨by omega, by omega, by rw [hE, hN, hC, hD]; exact h3⟩
  | none =>
    cases e' : giniScore r' with
    | none => rfl
    | some g =>
      obtain ⟨h1, h2, h3⟩ := (C97_gini r' g).1 e'
      have := (C97_gini r g).2 ⟨by omega, by omega, by rw [← hE, ← hN, ← hC, ← hD]; exact h3⟩
      rw [e] at this
      cases this

/-- **C97.** The Gini coefficient depends only on the ranking: a strictly increasing transformation of the scores does not
change it. -/
theorem C97_ranking (r : List (α × Bool)) (f : α → β) (hf : StrictMono f) :
    giniScore (r.map fun x => (f x.1, x.2)) = giniScore r := by
  refine giniScore_congr (counts_map f r).1 (counts_map f r).2 ?_ ?_
  · simp [concordant, List.countP_map, Function.comp_def, hf.lt_iff_lt]
  · simp [discordant, List.countP_map, Function.comp_def, hf.lt_iff_lt]

/-- **C97.** It does not depend on the order of the records. -/
theorem C97_order {r r' : List (α × Bool)} (h : r.Perm r') : giniScore r = giniScore r' := by
  have e : ∀ P : α × Bool → α × Bool → Bool, (r.map fun b => r.countP fun a => P a b).sum = (r'.map fun b => r'.countP fun a => P a b).sum := by
    intro P
    rw [(h.map _).sum_eq]
    congr 1
    exact List.map_congr_left fun b _ => h.countP_eq _
  exact giniScore_congr (h.countP_eq _) (h.countP_eq _) (e _) (e _)

/-- **C97.** Reversing the ranking changes the sign. -/
theorem C97_reversed (r : List (α × Bool)) (f : α → β) (hf : StrictAnti f) :
    giniScore (r.map fun x => (f x.1, x.2)) = (giniScore r).map fun g => -g := by
  have hC : concordant (r.map fun x => (f x.1, x.2)) = discordant r := by
    simp [concordant, discordant, List.countP_map, Function.comp_def, hf.lt_iff_gt]
  have hD : discordant (r.map fun x => (f x.1, x.2)) = concordant r := by
    simp [concordant, discordant, List.countP_map, Function.comp_def, hf.lt_iff_gt]
  obtain ⟨hE, hN⟩ := counts_map f r
  cases e : giniScore r with
  | some g =>
    obtain ⟨h1, h2, h3⟩ := (C97_gini r g).1 e
    refine (C97_gini _ _).2 ⟨by omega, by omega, ?_⟩
    rw [hE, hN, hC, hD, h3]
    ring
  | none =>
    cases e' : giniScore (r.map fun x => (f x.1, x.2)) with
    | none => rfl
    | some g =>
      obtain ⟨h1, h2, h3⟩ := (C97_gini _ g).1 e'
      have := (C97_gini r _).2 ⟨by omega, by omega, rfl⟩
      rw [e] at this
      cases this

/-- **C97.** Scores without information give 0. -/
theorem C97_constant (r : List (α × Bool)) (v : α) (hv : ∀ x ∈ r, x.1 = v) (g : ℚ) (h : giniScore r = some g) : g = 0 := by
  obtain ⟨_, _, rfl⟩ := (C97_gini r g).1 h
  have h1 := (concordant_zero r).2 fun a ha b hb _ _ => by rw [hv a ha, hv b hb]
  have h2 := (discordant_zero r).2 fun a ha b hb _ _ => by rw [hv a ha, hv b hb]
  rw [h1, h2]
  simp

/-- Three events, two non-events, one tie: (3 − 2) / 6. -/
example : giniScore [((3 : ℕ), true), (1, false), (2, true), (2, false), (0, true)] = some (1 / 6) := by decide +kernel

end OptBinning
