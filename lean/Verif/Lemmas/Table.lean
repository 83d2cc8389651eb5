import Mathlib.Data.List.GetD
import Verif.Lemmas.Fit2

set_option linter.unusedSectionVars false
set_option linter.unusedSimpArgs false

namespace OptBinning
open Spec Finset

theorem binOf_succ (sol : List Bool) (i : ℕ) :
    binOf sol (i + 1) = binOf sol i + if solOf sol i then 1 else 0 := by
  unfold binOf solOf
  rw [List.take_add_one]
  rw [List.count_append]
  congr 1
  rw [List.getD]
  cases h : sol[i]? with
  | none => simp
  | some b => cases b <;> simp

theorem binOf_mono (sol : List Bool) {i j : ℕ} (h : i ≤ j) : binOf sol i ≤ binOf sol j := by
  induction j, h using Nat.le_induction with
  | base => exact le_rfl
  | succ j _ ih => rw [binOf_succ]; omega

theorem binOf_length (sol : List Bool) : binOf sol sol.length = sol.count true := by simp [binOf]

/-- The `k`-th bin exists. -/
theorem exists_end (sol : List Bool) (n : ℕ) {k : ℕ} (h : k < binOf sol n) :
    ∃ e < n, solOf sol e = true ∧ binOf sol e = k := by
  induction n with
  | zero => simp [binOf] at h
  | succ n ih =>
    rw [binOf_succ] at h
    by_cases hk : k < binOf sol n
    · obtain ⟨e, he, h1⟩ := ih hk
      exact ⟨e, by omega, h1⟩
    · by_cases hb : solOf sol n = true
      · simp only [hb, if_true] at h
        exact ⟨n, by omega, hb, by omega⟩
      · simp [hb] at h; omega

theorem binOf_const {n : ℕ} {sol : List Bool} {s e : ℕ} (h : IsBin n (solOf sol) s e) {i : ℕ} (h1 : s ≤ i) (h2 : i ≤ e) :
    binOf sol i = binOf sol s := by
  induction i, h1 using Nat.le_induction with
  | base => rfl
  | succ i hi ih => rw [binOf_succ, ih (by omega), h.2.2.2.2 i hi (by omega)]; simp

theorem binOf_iff {n : ℕ} {sol : List Bool} {s e : ℕ} (h : IsBin n (solOf sol) s e) (i : ℕ) :
    binOf sol i = binOf sol e ↔ s ≤ i ∧ i ≤ e := by
  constructor
  · intro hi
    constructor
    · by_contra hc
      have hs : s ≠ 0 := by omega
      have h1 : solOf sol (s - 1) = true := h.2.2.2.1.resolve_left hs
      have h2 : binOf sol s = binOf sol (s - 1) + 1 := by
        have := binOf_succ sol (s - 1)
        rw [h1, Nat.sub_add_cancel (by omega)] at this
        simpa using this
      have h3 := binOf_mono sol (show i ≤ s - 1 by omega)
      have h4 := binOf_const h h.1 le_rfl
      omega
    · by_contra hc
      have h1 := binOf_succ sol e
      rw [h.2.2.1] at h1
      have h2 := binOf_mono sol (show e + 1 ≤ i by omega)
      simp at h1
      omega
  · rintro ⟨h1, h2⟩
    rw [binOf_const h h1 h2, binOf_const h h.1 le_rfl]

/-- Row `k` of the table is a bin of the solution. -/
theorem accumBins_bin (sol : List Bool) (hl : sol.getLast? = some true) {k : ℕ} (hk : k < sol.count true) :
    ∃ s e, IsBin sol.length (solOf sol) s e ∧ binOf sol e = k ∧
      ∀ c : List ℕ, c.length = sol.length → (accumBins sol c 0).getD k 0 = ∑ i ∈ Icc s e, c.getD i 0 := by
  rw [← binOf_length] at hk
  obtain ⟨e, he, h1, h2⟩ := exists_end sol _ hk
  obtain ⟨s, hb⟩ := exists_start sol.length (solOf sol) he h1
  refine ⟨s, e, hb, h2, fun c hc => ?_⟩
  rw [accumBins_getD sol c 0 k hc.symm (Or.inr hl), ite_self, zero_add, ← sum_filter]
  refine sum_congr ?_ fun _ _ => rfl
  ext i
  simp only [mem_filter, mem_range, mem_Icc]
  rw [← h2, binOf_iff hb]
  constructor
  · exact fun h => h.2
  · exact fun h => ⟨by omega, h⟩

theorem bin_lt {n : ℕ} {sol : List Bool} {s e s' e' : ℕ} (_h : IsBin n (solOf sol) s e) (h' : IsBin n (solOf sol) s' e')
    (hlt : binOf sol e < binOf sol e') : e < s' := by
  by_contra hc
  rcases Nat.lt_or_ge e e' with h1 | h1
  · have := (binOf_iff h' e).2 ⟨by omega, by omega⟩
    omega
  · have := binOf_mono sol h1
    omega

variable {α : Type*} [LinearOrder α]

/-- If the result of a fit has at least one split, the solver was called and the regular rows of the table are its bins. -/
theorem fitCore_rows {cfg : PrebinCfg} {solver : Solver} {clean : List (Rec α)} {others : Bool → Option ℕ}
    {special : Bool → List ℕ} {missing : Bool → ℕ} {st st' : PrebinState α}
    {splits : List α} {f : Fitted α} (hcat : cfg.catUser = false)
    (hsolver : ∀ nev ev : List ℕ, 0 < nev.length → (solve nev.length (solver nev ev)).2.getLast? = some true)
    (h : fitCore cfg solver clean others special missing st splits = .ok (st', f)) (hne : f.splits ≠ []) :
    ∃ nev ev : List ℕ, ev.length = nev.length ∧ 2 ≤ nev.length ∧
      f.status = (solve nev.length (solver nev ev)).1 ∧
      (solve nev.length (solver nev ev)).2.count true = f.splits.length + 1 ∧
      ∀ k ≤ f.splits.length, ∃ s e, IsBin nev.length (solOf (solve nev.length (solver nev ev)).2) s e ∧
        binOf (solve nev.length (solver nev ev)).2 e = k ∧
        f.nonevent.getD k 0 = ∑ i ∈ Icc s e, nev.getD i 0 ∧ f.event.getD k 0 = ∑ i ∈ Icc s e, ev.getD i 0 := by
  unfold fitCore at h
  cases hpb : computePrebins cfg clean st splits with
  | error e => simp [hpb, bind, Except.bind] at h
  | ok pb =>
    simp only [hpb, bind, Except.bind, pure, Except.pure, Except.ok.injEq, Prod.mk.injEq] at h
    obtain ⟨-, hf⟩ := h
    obtain ⟨hsub, hcase⟩ := computePrebins_spec _ _ _ _ _ hpb
    rcases hcase with ⟨h1, h2, h3⟩ | ⟨h1, h2, h3, -⟩
    · have hr : fitOptimizer cfg.catUser solver pb.splits pb.nonevent pb.event = ⟨"OPTIMAL", [], []⟩ := by
        simp [fitOptimizer, h1, h2]
      rw [hr] at hf
      subst hf
      exact absurd rfl hne
    · have hlen : pb.nonevent.length = pb.splits.length + 1 := by
        rw [h2, length_prebinCounts]; simp [prebinNumber, hcat]
      have hlen' : pb.event.length = pb.splits.length + 1 := by
        rw [h3, length_prebinCounts]; simp [prebinNumber, hcat]
      have hpos : 0 < pb.splits.length := List.length_pos_iff.2 h1
      have hn2 : ¬ pb.nonevent.length ≤ 1 := by omega
      have hlast := hsolver pb.nonevent pb.event (by omega)
      have hsl := solve_length pb.nonevent.length (solver pb.nonevent pb.event)
      refine ⟨pb.nonevent, pb.event, by omega, by omega, ?_⟩
      generalize hsol : (solve pb.nonevent.length (solver pb.nonevent pb.event)) = R at hlast hsl ⊢
      have hr : fitOptimizer cfg.catUser solver pb.splits pb.nonevent pb.event =
          ⟨R.1, select pb.splits R.2.dropLast, R.2⟩ := by
        simp [fitOptimizer, hn2, hcat, hsol]
      rw [hr] at hf
      subst hf
      have hne : R.2.length ≠ 0 := by omega
      have hcount : R.2.count true = (select pb.splits R.2.dropLast).length + 1 := by
        rw [length_select _ _ (by simp [hsl, hlen])]
        obtain ⟨l, hl⟩ := List.getLast?_eq_some_iff.1 hlast
        rw [hl]; simp
      refine ⟨rfl, hcount, fun k hk => ?_⟩
      obtain ⟨a, b, hb, hbk, hacc⟩ := accumBins_bin R.2 hlast (k := k) (by rw [hcount]; exact Nat.lt_succ_of_le hk)
      refine ⟨a, b, hsl ▸ hb, hbk, ?_, ?_⟩
      · rw [← hacc pb.nonevent (by omega)]
        simp only [binInfo, h1, hne, if_false, List.length_eq_zero_iff, List.append_nil, List.append_assoc]
        rw [List.getD_append]
        rw [accumBins_length _ _ _ (by omega), hcount]
        exact Nat.lt_succ_of_le hk
      · rw [← hacc pb.event (by omega)]
        simp only [binInfo, h1, hne, if_false, List.length_eq_zero_iff, List.append_nil, List.append_assoc]
        rw [List.getD_append]
        rw [accumBins_length _ _ _ (by omega), hcount]
        exact Nat.lt_succ_of_le hk

theorem fitFrom_rows {cfg : PrebinCfg} {sc : SpecialCodes α} {solver : Solver} {s : Split α} {st st' : PrebinState α}
    {splits : List α} {f : Fitted α} (hcat : cfg.catUser = false)
    (hsolver : ∀ nev ev : List ℕ, 0 < nev.length → (solve nev.length (solver nev ev)).2.getLast? = some true)
    (h : fitFrom cfg sc solver s st splits = .ok (st', f)) (hne : f.splits ≠ []) :
    ∃ nev ev : List ℕ, ev.length = nev.length ∧ 2 ≤ nev.length ∧
      f.status = (solve nev.length (solver nev ev)).1 ∧
      (solve nev.length (solver nev ev)).2.count true = f.splits.length + 1 ∧
      ∀ k ≤ f.splits.length, ∃ s e, IsBin nev.length (solOf (solve nev.length (solver nev ev)).2) s e ∧
        binOf (solve nev.length (solver nev ev)).2 e = k ∧
        f.nonevent.getD k 0 = ∑ i ∈ Icc s e, nev.getD i 0 ∧ f.event.getD k 0 = ∑ i ∈ Icc s e, ev.getD i 0 := 
  fitCore_rows hcat hsolver h hne

theorem numBins_eq (sol : List Bool) (n : ℕ) : numBins n (solOf sol) = binOf sol n := by
  induction n with
  | zero => simp [numBins, binOf]
  | succ n ih =>
    rw [binOf_succ, ← ih]
    unfold numBins
    rw [range_add_one, filter_insert]
    split_ifs with h
    · rw [card_insert_of_notMem (by simp)]
    · rfl

end OptBinning
