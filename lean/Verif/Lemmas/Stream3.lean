import Verif.Lemmas.Stream2
import Verif.Props.FitTable

/-! # Lemmas about streaming binning: the result of `solve` -/
namespace OptBinning.Spec
variable {α : Type*} [LinearOrder α]

/-- Number of values up to the split before position `i`. -/
def numUpTo (splits : List α) : ℕ → List α → ℕ
  | 0, _ => 0
  | i + 1, vs => match splits[i]? with | some a => numLe vs a | none => vs.length

theorem numUpTo_succ {splits : List α} (hs : splits.Pairwise (· ≤ ·)) (k : ℕ) (vs : List α) :
    numUpTo splits (k + 1) vs = numUpTo splits k vs + (if k ≤ splits.length then numBetween splits k vs else 0) := by
  unfold numUpTo numBetween
  rcases k with _ | k
  · cases h : splits[0]? with
    | none => simp [h]
    | some a => simp [h, numLe]
  · simp only
    by_cases hk : k < splits.length
    · rw [List.getElem?_eq_getElem hk]
      simp only [if_pos (show k + 1 ≤ splits.length by omega), Nat.add_sub_cancel]
      by_cases hk1 : k + 1 < splits.length
      · rw [List.getElem?_eq_getElem hk1, List.getElem?_eq_getElem hk]
        have hle : splits[k] ≤ splits[k + 1] := List.pairwise_iff_getElem.1 hs k (k + 1) hk hk1 (by omega)
        simp only [numLe]
        induction vs with
        | nil => rfl
        | cons v vs ih =>
          simp only [List.countP_cons, ih, Option.all_some]
          by_cases h1 : v ≤ splits[k]
          · simp [h1, h1.trans hle, not_lt.2 h1]; omega
          · simp [h1, not_le.1 h1]; omega
      · rw [List.getElem?_eq_none (by omega), List.getElem?_eq_getElem hk]
        simp only [numLe]
        induction vs with
        | nil => rfl
        | cons v vs ih =>
          simp only [List.countP_cons, List.length_cons, ih, Option.all_some]
          by_cases h1 : v ≤ splits[k]
          · simp [h1, not_lt.2 h1]; omega
          · simp [h1, not_le.1 h1]; omega
    · rw [List.getElem?_eq_none (by omega), List.getElem?_eq_none (by omega)]
      simp [show ¬ k + 1 ≤ splits.length by omega]

end OptBinning.Spec

namespace OptBinning
open Finset
open Spec (usedValues specialCount missingCount classCount IsSpecialValue numLe numLt HasRankWithin)
variable {α : Type*} [LinearOrder α]

/-- The sketch of a class. -/
def Stream.sketch (s : Stream α) (ev : Bool) : GK α := if ev then s.e else s.ne

theorem Stream.Holding.sketch {cfg : StreamCfg α} {s : Stream α} {recs : List (Rec α)} (h : s.Holding cfg recs) (ev : Bool) :
    Filled cfg.eps (s.sketch ev) (usedValues cfg.sc ev recs) := by
  cases ev
  · exact h.ne
  · exact h.e

/-- What a successful `solve` returns. -/
theorem solve_result {cfg : StreamCfg α} (heps : 0 < cfg.eps) (hsc : ¬ IsSpecialValue cfg.sc none) {s : Stream α} {recs : List (Rec α)}
    (h : s.Holding cfg recs) {solver : Solver}
    (hend : ∀ nev ev : List ℕ, 0 < nev.length → (solve nev.length (solver nev ev)).2.getLast? = some true) {f : StreamFit α}
    (hf : (s.solve cfg solver).1 = .ok f) :
    ∃ (K : Bool → GK α) (cand pb : List α), (∀ ev, Filled cfg.eps (K ev) (usedValues cfg.sc ev recs)) ∧
      cand.length = cfg.maxPrebins - 1 ∧ cand.Pairwise (· ≤ ·) ∧ pb.Sublist cand ∧
      (usedValues cfg.sc true recs ++ usedValues cfg.sc false recs ≠ [] → ∀ (i : ℕ) (hi : i < cand.length),
        HasRankWithin (usedValues cfg.sc true recs ++ usedValues cfg.sc false recs) cand[i]
        (⌊((i + 1 : ℕ) : ℚ) / cfg.maxPrebins * (((usedValues cfg.sc true recs ++ usedValues cfg.sc false recs).length : ℚ) - 1)⌋ + 1)
        ⌊3 * cfg.eps * (((usedValues cfg.sc true recs ++ usedValues cfg.sc false recs).length : ℚ) - 1)⌋) ∧
      (cfg.keepPure = false → ∀ ev, ∀ x ∈ (K ev).counts pb, 0 < x) ∧ (cfg.keepPure = true → pb = cand) ∧
      f.nPrebins = pb.length + 1 ∧ f.refinements = 0 ∧
      ((pb = [] ∧ f.table.status = "OPTIMAL" ∧ f.table.splits = [] ∧
          ∀ ev, f.table.column ev = [classCount ev recs, specialCount cfg.sc ev recs, missingCount ev recs]) ∨
        (pb ≠ [] ∧ ∃ sol : List Bool, sol.length = pb.length + 1 ∧ sol.getLast? = some true ∧
          solve (pb.length + 1) (solver ((K false).counts pb) ((K true).counts pb)) = (f.table.status, sol) ∧
          f.table.splits = select pb sol.dropLast ∧
          ∀ ev, f.table.column ev =
            accumBins sol ((K ev).counts pb) 0 ++ [specialCount cfg.sc ev recs, missingCount ev recs])) := by
  unfold Stream.solve at hf
  by_cases h0 : s.nAdd = 0
  · rw [if_pos h0] at hf; simp at hf
  rw [if_neg h0] at hf
  obtain ⟨all, ne', ops, hm, hne', hall, hcol⟩ := mergeSketches_ok heps h
  have hF : Filled cfg.eps ne' (usedValues cfg.sc false recs) := by
    rcases hne' with rfl | rfl
    · exact h.ne
    · exact h.ne.compress
  rw [hm] at hf
  simp only at hf
  cases hq : all.quantiles (percentiles cfg.maxPrebins) with
  | error e => rw [hq] at hf; simp at hf
  | ok cand =>
    rw [hq] at hf
    simp only at hf
    cases hp : streamPrebins cfg.keepPure s.e ne' cand with
    | error e => rw [hp] at hf; simp at hf
    | ok pb =>
      rw [hp] at hf
      simp only [Except.ok.injEq] at hf
      obtain ⟨p1, p2, p3, p4, p5, p6⟩ := streamPrebins_spec hp
      have hcand : cand.length = cfg.maxPrebins - 1 ∧ cand.Pairwise (· ≤ ·) ∧
          (collectedValues ops ≠ [] → ∀ (i : ℕ) (hi : i < cand.length), HasRankWithin (collectedValues ops) cand[i]
            (⌊((i + 1 : ℕ) : ℚ) / cfg.maxPrebins * (((collectedValues ops).length : ℚ) - 1)⌋ + 1)
            ⌊3 * cfg.eps * (((collectedValues ops).length : ℚ) - 1)⌋) := by
        by_cases hne : collectedValues ops = []
        · have hc : all.count = 0 := by
            obtain ⟨-, E, -, -, hC⟩ := collects_run cfg.eps heps ops
            rw [hall, hC.count, hne]; rfl
          by_cases hm2 : 2 ≤ cfg.maxPrebins
          · rw [splits_empty hc hm2] at hq; simp at hq
          · have : percentiles cfg.maxPrebins = [] := by
              unfold percentiles; rw [show cfg.maxPrebins - 1 = 0 by omega]; rfl
            rw [this] at hq
            simp only [GK.quantiles, Except.ok.injEq] at hq
            subst hq
            exact ⟨by simp; omega, .nil, fun h => absurd hne h⟩
        · obtain ⟨vs, h1, h2, h3, h4⟩ := splits_spec heps ops hne cfg.maxPrebins
          rw [← hall, hq] at h1
          simp only [Except.ok.injEq] at h1
          subst h1
          exact ⟨h2, h3, fun _ => h4⟩
      rw [hcol] at hcand
      have hl1 : pb.nonevent.length = pb.splits.length + 1 := by rw [p2, length_counts]
      have hl2 : pb.event.length = pb.splits.length + 1 := by rw [p3, length_counts]
      have hcnt : ∀ ev, (s.sketch ev).count = (usedValues cfg.sc ev recs).length := fun ev => ((h.sketch ev).eps heps).2
      have hce := hcnt true
      have hcn := hcnt false
      have hte := class_parts cfg.sc hsc true recs
      have htn := class_parts cfg.sc hsc false recs
      simp only [Stream.sketch, if_true, Bool.false_eq_true, if_false] at hce hcn
      refine ⟨fun ev => if ev then s.e else ne', cand, pb.splits, ?_, hcand.1, hcand.2.1, p1, hcand.2.2, ?_, p6, ?_, ?_, ?_⟩
      · intro ev; cases ev
        · exact hF
        · exact h.e
      · intro hk ev
        have := pureMask_false (by omega) (p5 hk)
        cases ev
        · simpa [p2] using this.1
        · simpa [p3] using this.2
      · rw [← hf]
      · rw [← hf]; exact p4
      · by_cases hpe : pb.splits = []
        · left
          have hr : fitOptimizer false solver pb.splits pb.nonevent pb.event = ⟨"OPTIMAL", [], []⟩ := by
            simp [fitOptimizer, hl1, hpe]
          rw [hr] at hf
          refine ⟨hpe, by rw [← hf], by rw [← hf], ?_⟩
          intro ev
          cases ev
          · simp only [← hf, Fitted.column, streamColumn, hpe, List.length_nil, binInfo, accumBins, if_true, Bool.false_eq_true, if_false]
            simp [h.missNe, h.specNe, hcn, htn]
          · simp only [← hf, Fitted.column, streamColumn, hpe, List.length_nil, binInfo, accumBins, if_true]
            simp [h.missE, h.specE, hce, hte]
        · right
          have hpos : 0 < pb.splits.length := List.length_pos_iff.2 hpe
          have hn2 : ¬ pb.nonevent.length ≤ 1 := by omega
          have hlast := hend pb.nonevent pb.event (by omega)
          have hsl := solve_length pb.nonevent.length (solver pb.nonevent pb.event)
          generalize hsol : (solve pb.nonevent.length (solver pb.nonevent pb.event)) = R at hlast hsl
          have hr : fitOptimizer false solver pb.splits pb.nonevent pb.event = ⟨R.1, select pb.splits R.2.dropLast, R.2⟩ := by
            simp [fitOptimizer, hn2, hsol]
          rw [hr] at hf
          have hRl : R.2.length ≠ 0 := by omega
          refine ⟨hpe, R.2, by omega, hlast, ?_, by rw [← hf], ?_⟩
          · simp only [Bool.false_eq_true, if_false, if_true]
            rw [← p2, ← p3, ← hl1, hsol, ← hf]
          · intro ev
            cases ev
            · simp only [← hf, Fitted.column, streamColumn, binInfo, hRl, if_false, Bool.false_eq_true, h.missNe, h.specNe,
                show pb.splits.length ≠ 0 by omega, Option.toList, List.append_nil]
              rw [← p2]; simp
            · simp only [← hf, Fitted.column, streamColumn, binInfo, hRl, if_false, if_true, h.missE, h.specE,
                show pb.splits.length ≠ 0 by omega, Option.toList, List.append_nil]
              rw [← p3]; simp

end OptBinning
