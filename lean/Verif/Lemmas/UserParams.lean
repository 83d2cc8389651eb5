import Verif.Model.UserParams
import Verif.Props.Params
import Verif.Props.FitMore
import Verif.Lemmas.CutsFit

/-!
# Lemmas: user splits as pre-binning, fixed splits as a restriction
-/
namespace OptBinning
open OptBinning.Spec

variable {α : Type*} [LinearOrder α]

/-- The refinement finds the same splits and counts whatever the object holds, if it does not fail. -/
theorem computePrebins_any_state {cfg : PrebinCfg} {recs : List (Rec α)} {splits : List α} {st st0 : PrebinState α} {pb : Prebins α}
    (h0 : st0.fixed = none) (h : computePrebins cfg recs st splits = .ok pb) :
    ∃ st', computePrebins cfg recs st0 splits = .ok ⟨st', pb.splits, pb.nonevent, pb.event⟩ := by
  induction hn : splits.length using Nat.strong_induction_on generalizing splits st st0 with
  | _ n ih =>
    rw [computePrebins] at h ⊢
    simp only at h ⊢
    split_ifs at h ⊢ with h1 h2 h3
    · cases h; exact ⟨_, rfl⟩
    · cases h; exact ⟨_, rfl⟩
    · have hm := maskSplits_any (c := cfg.catUser) (n := splits.length) (by omega)
        (by simp [pureMask, length_prebinCounts, prebinNumber]) h2
      have hlt := length_select_lt hm.1 hm.2
      rw [h0]
      cases hf : st.fixed with
      | none =>
        rw [hf] at h
        exact ih _ (hn ▸ hlt) rfl h rfl
      | some fx =>
        rw [hf] at h
        simp only at h
        split_ifs at h with h4
        exact ih _ (hn ▸ hlt) rfl h rfl
    · cases h; exact ⟨_, rfl⟩

/-- Without flags the refinement finds the same, or fails the same way, whatever else the object holds. -/
theorem computePrebins_no_flags {cfg : PrebinCfg} {recs : List (Rec α)} {splits : List α} {st st0 : PrebinState α}
    (h : st.fixed = none) (h0 : st0.fixed = none) :
    (computePrebins cfg recs st splits).map (fun pb => (pb.splits, pb.nonevent, pb.event)) =
      (computePrebins cfg recs st0 splits).map fun pb => (pb.splits, pb.nonevent, pb.event) := by
  induction hn : splits.length using Nat.strong_induction_on generalizing splits st st0 with
  | _ n ih =>
    rw [computePrebins, computePrebins]
    simp only
    split_ifs with h1 h2 h3
    · rfl
    · rfl
    · have hm := maskSplits_any (c := cfg.catUser) (n := splits.length) (by omega)
        (by simp [pureMask, length_prebinCounts, prebinNumber]) h2
      have hlt := length_select_lt hm.1 hm.2
      rw [h, h0]
      exact ih _ (hn ▸ hlt) rfl rfl rfl
    · rfl

/-- The answer without the claim that it is optimal. -/
def SolverAnswer.demote : SolverAnswer → SolverAnswer
  | .optimal a => .feasible a
  | a => a

theorem demote_valid {R : Type*} [LE R] {ok ok' : Assign → Prop} {obj obj' : Assign → R} (h : ∀ a, ok a → ok' a) {ans : SolverAnswer}
    (hv : ans.Valid ok obj) : ans.demote.Valid ok' obj' := by
  cases ans with
  | optimal a => exact h a hv.1
  | feasible a => exact h a hv
  | other s => exact hv

theorem solve_demote (n : ℕ) (ans : SolverAnswer) : (solve n ans.demote).2 = (solve n ans).2 := by
  cases ans <;> rfl

theorem feasibleCore_fixed {R : Type*} [CommRing R] [LinearOrder R] {o : Opts} {M : R} {dat : Data R} {a : Assign} {g : Option (ℕ → Bool)}
    (ho : o.fixed = none) (h : feasibleCore { o with fixed := g } M dat a) : feasibleCore o M dat a := by
  obtain ⟨h1, h2, h3, h4, h5, h6, h7, h8, h9, -⟩ := h
  refine ⟨h1, h2, h3, h4, h5, h6, h7, h8, h9, fun f hf => ?_⟩
  rw [ho] at hf
  cases hf

theorem cfg_fixed (p : Params) (hull : List ℚ → Option ℚ) (stale : Bool) (pv : ℕ → ℕ → ℕ → ℕ → ℝ) (n : ℕ) (nev ev : List ℕ) :
    ((p.cfg hull stale pv n).opts nev ev).fixed = none := by
  simp only [Params.cfg, Params.options, bind, Except.bind]
  cases resolveTrend hull nev ev p.trend <;> rfl

theorem respectsCP_demote {p : Params} {hull : List ℚ → Option ℚ} {stale : Bool} {pv : ℕ → ℕ → ℕ → ℕ → ℝ} {n : ℕ} {fixed : Option FlagArray}
    {reg : ℤ} {solver : Solver} (h : RespectsCP (p.cfgFixed hull stale pv n fixed) reg solver) :
    RespectsCP (p.cfg hull stale pv n) reg (fun nev ev => (solver nev ev).demote) := fun nev ev =>
  demote_valid (fun _ ha => ⟨feasibleCore_fixed (cfg_fixed p hull stale pv n nev ev) ha.1, ha.2⟩) (h nev ev)

theorem respectsMIP_demote {p : Params} {hull : List ℚ → Option ℚ} {stale : Bool} {pv : ℕ → ℕ → ℕ → ℕ → ℝ} {n : ℕ} {fixed : Option FlagArray}
    {reg : ℝ} {solver : Solver} (h : RespectsMIP (p.cfgFixed hull stale pv n fixed) reg solver) :
    RespectsMIP (p.cfg hull stale pv n) reg (fun nev ev => (solver nev ev).demote) := fun nev ev =>
  demote_valid (fun _ ha => ⟨feasibleCore_fixed (cfg_fixed p hull stale pv n nev ev) ha.1, ha.2⟩) (h nev ev)

/-- The splits and the columns of a fit do not depend on the solver's claim of optimality. -/
theorem fitNumerical_demote {cfg : PrebinCfg} {sc : SpecialCodes α} {so : SplitOpts α} {prebin : List (Rec α) → List α} {solver : Solver}
    {recs : List (Rec α)} {f : Fitted α} (h : fitNumerical cfg sc so prebin solver recs = .ok f) :
    ∃ s, fitNumerical cfg sc so prebin (fun nev ev => (solver nev ev).demote) recs = .ok { f with status := s } := by
  unfold fitNumerical fitFrom fitCore at h ⊢
  simp only at h ⊢
  cases hpb : computePrebins { cfg with catUser := false } (splitData sc so recs).clean {} (prebin (splitData sc so recs).clean) with
  | error e => simp [hpb, bind, Except.bind] at h
  | ok pb =>
    simp only [hpb, bind, Except.bind, pure, Except.pure, Except.ok.injEq] at h ⊢
    subst h
    have e : (fitOptimizer false (fun nev ev => (solver nev ev).demote) pb.splits pb.nonevent pb.event).splits =
        (fitOptimizer false solver pb.splits pb.nonevent pb.event).splits ∧
      (fitOptimizer false (fun nev ev => (solver nev ev).demote) pb.splits pb.nonevent pb.event).solution =
        (fitOptimizer false solver pb.splits pb.nonevent pb.event).solution := by
      unfold fitOptimizer
      split_ifs
      · exact ⟨rfl, rfl⟩
      · contradiction
      · exact ⟨by simp only [solve_demote], solve_demote _ _⟩
    exact ⟨_, by rw [e.1, e.2]⟩

/-- A fit with user splits is a fit whose pre-binning finds the sorted and rounded user splits. -/
theorem fitUserRounded_numerical {cfg : PrebinCfg} {sc : SpecialCodes α} {so : SplitOpts α} {solver : Solver} {st st' : PrebinState α} {r : α → α}
    {recs : List (Rec α)} {f : Fitted α} (h : fitUserRounded cfg sc so solver st r recs = .ok (st', f)) :
    ∃ (sorted : List α) (st1 : PrebinState α) (pb : Prebins α), st.userSplits ≠ [] ∧ st.userSplits.Nodup ∧
      sortUserSplits st = .ok (st1, sorted) ∧ computePrebins { cfg with catUser := false } (splitData sc so recs).clean st1 (sorted.map r) = .ok pb ∧
      st' = pb.st ∧ fitNumerical cfg sc so (fun _ => sorted.map r) solver recs = .ok f := by
  unfold fitUserRounded at h
  split_ifs at h with h0
  cases hso : sortUserSplits st with
  | error e => simp [hso] at h
  | ok q =>
    obtain ⟨st1, sorted⟩ := q
    simp only [hso] at h
    unfold fitFrom fitCore at h
    simp only [bind, Except.bind] at h
    cases hpb : computePrebins { cfg with catUser := false } (splitData sc so recs).clean st1 (sorted.map r) with
    | error e => simp [hpb] at h
    | ok pb =>
      simp only [hpb, pure, Except.pure, Except.ok.injEq, Prod.mk.injEq] at h
      obtain ⟨hst, hf⟩ := h
      obtain ⟨st2, h2⟩ := computePrebins_any_state (st0 := {}) rfl hpb
      refine ⟨sorted, st1, pb, fun hc => h0 (by rw [hc]; rfl), ?_, rfl, hpb, hst.symm, ?_⟩
      · unfold sortUserSplits at hso
        split_ifs at hso with hn
        exact hn
      · unfold fitNumerical fitFrom fitCore
        simp only [h2, bind, Except.bind, pure, Except.pure, Except.ok.injEq]
        exact hf

theorem rounded_none {p : Params} (rnd : ℤ → α → α) (h : p.splitDigits = none) : p.rounded rnd = id := by
  unfold Params.rounded; rw [h]

/-- Without rounding, the fit is `fitUser`. -/
theorem fitUserRounded_id {cfg : PrebinCfg} {sc : SpecialCodes α} {so : SplitOpts α} {solver : Solver} {st : PrebinState α} {recs : List (Rec α)} :
    fitUserRounded cfg sc so solver st id recs = fitUser cfg sc so solver st recs := by
  unfold fitUserRounded fitUser
  split_ifs
  · rfl
  · cases sortUserSplits st with
    | error e => rfl
    | ok q => simp only [List.map_id, bind, Except.bind]

theorem sortUserSplits_sorted {st st1 : PrebinState α} {sorted : List α} (hl : ∀ fx, st.fixed = some fx → fx.length = st.userSplits.length)
    (h : sortUserSplits st = .ok (st1, sorted)) : sorted.Perm st.userSplits ∧ sorted.Pairwise (· ≤ ·) ∧
      (∀ fx, st.fixed = some fx → ∃ fx1, st1.fixed = some fx1 ∧ fx1.length = sorted.length ∧ ∀ q, q ∈ sorted.zip fx1 ↔ q ∈ st.userSplits.zip fx) ∧
      (st.fixed = none → st1.fixed = none) := by
  unfold sortUserSplits at h
  split_ifs at h with hn
  cases hf : st.fixed with
  | none =>
    rw [hf] at h
    simp only [Except.ok.injEq, Prod.mk.injEq] at h
    obtain ⟨rfl, rfl⟩ := h
    exact ⟨List.perm_insertionSort _ _, List.pairwise_insertionSort _ _, fun fx h => (by cases h), fun _ => hf⟩
  | some fx =>
    rw [hf] at h
    simp only [Except.ok.injEq, Prod.mk.injEq] at h
    obtain ⟨rfl, rfl⟩ := h
    have hp := List.perm_insertionSort (fun a b : α × Bool => a.1 ≤ b.1) (st.userSplits.zip fx)
    refine ⟨?_, ?_, ?_, fun h => by cases h⟩
    · refine (hp.map Prod.fst).trans (List.Perm.of_eq ?_)
      rw [← List.unzip_fst, List.unzip_zip (by rw [hl fx hf])]
    · rw [List.pairwise_map]
      have : Std.Total (α := α × Bool) (fun a b => a.1 ≤ b.1) := ⟨fun a b => le_total a.1 b.1⟩
      have : IsTrans (α × Bool) (fun a b => a.1 ≤ b.1) := ⟨fun a b c h1 h2 => le_trans h1 h2⟩
      exact List.pairwise_insertionSort _ _
    · intro fx' hfx'
      cases hfx'
      refine ⟨_, rfl, by simp, fun q => ?_⟩
      rw [← List.unzip_fst, ← List.unzip_snd, List.zip_unzip]
      exact List.mem_insertionSort _

end OptBinning
