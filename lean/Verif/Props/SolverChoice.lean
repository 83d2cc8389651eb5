import Verif.Model.SolverChoice
import Verif.Lemmas.Fit2
import Verif.Props.ParamsFit

/-!
# C106: the argument `solver`

`solver="cp"` and `solver="mip"` run the fit of which the other properties speak.  `solver="ls"` is accepted by the parameter
check and documented, but never returns a binning with a split: as soon as there are two pre-bins `fit` raises `ValueError`.
-/
namespace OptBinning
open Spec

section
variable {α : Type*} [LinearOrder α]

/-- C106: `build_model` of the CP and of the MIP solver receive every component of the data under its own name; `build_model` of
the LocalSolver class raises. -/
theorem C106_data :
    (∀ s, s ≠ SolverName.ls → ∃ l, buildModelData s = .ok l ∧ l.map Prod.fst = l.map (fun q => some q.2) ∧
      Component.rates ∈ l.map Prod.snd ∧ Component.divergences ∈ l.map Prod.snd ∧
      Component.pvalueViolations ∈ l.map Prod.snd ∧ Component.minDiffViolations ∈ l.map Prod.snd) ∧
    buildModelData .ls = .error "ValueError" := by
  refine ⟨fun s hs => ?_, rfl⟩
  cases s
  · exact ⟨_, rfl, rfl, by decide, by decide, by decide, by decide⟩
  · exact ⟨_, rfl, rfl, by decide, by decide, by decide, by decide⟩
  · exact absurd rfl hs

omit [LinearOrder α] in
theorem fitOptimizerS_ok {name : SolverName} (hn : name ≠ .ls) (cat : Bool) (solver : Solver) (splits : List α) (nev ev : List ℕ) :
    fitOptimizerS name cat solver splits nev ev = .ok (fitOptimizer cat solver splits nev ev) := by
  obtain ⟨l, hl, -⟩ := C106_data.1 name hn
  unfold fitOptimizerS fitOptimizer
  rw [hl]
  by_cases h : nev.length ≤ 1 <;> simp only [h, if_true, if_false]

/-- C106: with `solver="cp"` and `solver="mip"` `fit` is the fit of which the other properties speak. -/
theorem C106_cp_mip {name : SolverName} (hn : name ≠ .ls) (p : Params) (sc : SpecialCodes α) (so : SplitOpts α)
    (prebin : List (Rec α) → List α) (solver : Solver) (recs : List (Rec α)) :
    fitSolver name p sc so prebin solver recs = fitParams p sc so prebin solver recs := by
  unfold fitSolver fitParams
  cases hp : checkParameters p with
  | error e => rfl
  | ok u =>
    simp only [fitNumerical, fitFrom, fitCoreS, fitCore, fitOptimizerS_ok hn]
    rfl

omit [LinearOrder α] in
theorem fitOptimizerS_ls (cat : Bool) (solver : Solver) (splits : List α) (nev ev : List ℕ) :
    fitOptimizerS .ls cat solver splits nev ev =
      if nev.length ≤ 1 then .ok ⟨"OPTIMAL", splits, List.replicate splits.length false⟩ else .error "ValueError" := by
  unfold fitOptimizerS
  split_ifs <;> rfl

theorem prebins_le_one {cfg : PrebinCfg} (hc : cfg.catUser = false) {recs : List (Rec α)} {st : PrebinState α} {splits : List α}
    {pb : Prebins α} (h : computePrebins cfg recs st splits = .ok pb) (hl : pb.nonevent.length ≤ 1) : pb.splits = [] := by
  obtain ⟨-, hcase⟩ := computePrebins_spec _ _ _ _ _ h
  by_contra hne
  have h0 : pb.splits.length ≠ 0 := fun h => hne (List.length_eq_zero_iff.1 h)
  rcases hcase with hcase | hcase
  · exact hne (by simpa using hcase.1)
  · have := hcase
    simp_all [length_prebinCounts, prebinNumber]

/-- C106: whenever `fit` with `solver="cp"` (or "mip") returns, `fit` with `solver="ls"` on the same data and the same options
raises `ValueError`, or there is no split at all and no solver is run. -/
theorem C106_ls {p : Params} {sc : SpecialCodes α} {so : SplitOpts α} {prebin : List (Rec α) → List α} {solver solver' : Solver}
    {recs : List (Rec α)} {f : Fitted α} (h : fitSolver .cp p sc so prebin solver recs = .ok f) :
    fitSolver .ls p sc so prebin solver' recs = .error "ValueError" ∨
      (fitSolver .ls p sc so prebin solver' recs = .ok f ∧ f.splits = [] ∧ f.status = "OPTIMAL") := by
  unfold fitSolver at h ⊢
  cases hp : checkParameters p with
  | error e => rw [hp] at h; cases h
  | ok u =>
    rw [hp] at h
    simp only [fitCoreS, fitOptimizerS_ok (show SolverName.cp ≠ .ls by decide), fitOptimizerS_ls, pure_bind] at h ⊢
    cases hpb : computePrebins { keepPure := p.divergence.keepsPure, catUser := false } (splitData sc so recs).clean ({} : PrebinState α)
        (prebin (splitData sc so recs).clean) with
    | error e => rw [hpb] at h; cases h
    | ok pb =>
      rw [hpb] at h
      simp only [bind, Except.bind, pure, Except.pure] at h ⊢
      by_cases hl : pb.nonevent.length ≤ 1
      · right
        have hs := prebins_le_one rfl hpb hl
        have e1 : fitOptimizer false solver pb.splits pb.nonevent pb.event = ⟨"OPTIMAL", pb.splits, List.replicate pb.splits.length false⟩ := by
          unfold fitOptimizer; rw [if_pos hl]
        rw [e1] at h
        rw [if_pos hl]
        refine ⟨h, ?_, ?_⟩
        · cases h; exact hs
        · cases h; rfl
      · left
        rw [if_neg hl]

/-- C106: a binning with a split found by the other solvers is never found with `solver="ls"`. -/
theorem C106_ls_raises {p : Params} {sc : SpecialCodes α} {so : SplitOpts α} {prebin : List (Rec α) → List α} {solver solver' : Solver}
    {recs : List (Rec α)} {f : Fitted α} (h : fitSolver .cp p sc so prebin solver recs = .ok f) (hf : f.splits ≠ []) :
    fitSolver .ls p sc so prebin solver' recs = .error "ValueError" := by
  rcases C106_ls (solver' := solver') h with h | ⟨-, h, -⟩
  · exact h
  · exact absurd h hf

end

/-- Non-vacuity of `C106_ls_raises`: five records in two pre-bins; "cp" finds two bins, "ls" raises. -/
example (hull : List ℚ → Option ℚ) (pv : ℕ → ℕ → ℕ → ℕ → ℝ) (solver' : Solver) :
    ∃ solver, Respects (fiveParams.cfg hull false pv fiveRecs.length) solver ∧
      (∃ f : Fitted ℕ, fitSolver .cp fiveParams .none {} (fun _ => [1]) solver fiveRecs = .ok f ∧ f.splits = [1]) ∧
      fitSolver .ls fiveParams .none {} (fun _ => [1]) solver' fiveRecs = .error "ValueError" := by
  obtain ⟨c, rfl, hr, hf⟩ := fiveFit hull pv
  have h := (C106_cp_mip (show SolverName.cp ≠ .ls by decide) fiveParams .none {} (fun _ => [1]) _ fiveRecs).trans hf
  exact ⟨_, hr, ⟨_, h, rfl⟩, C106_ls_raises h (by simp)⟩

/-- The other case of `C106_ls`: without a split (the pre-binning finds none) "ls" returns the single bin. -/
example (solver' : Solver) :
    ∃ f : Fitted ℕ, fitSolver .ls fiveParams .none {} (fun _ => []) solver' fiveRecs = .ok f ∧ f.splits = [] := by
  have h0 : ∀ (cfg : PrebinCfg) (recs : List (Rec ℕ)), computePrebins cfg recs {} [] = .ok ⟨{}, [], [], []⟩ := fun cfg recs => by
    rw [computePrebins]; rfl
  unfold fitSolver
  rw [fiveAccepted]
  simp only [fitCoreS, h0, fitOptimizerS_ls, pure_bind]
  exact ⟨_, rfl, rfl⟩

end OptBinning
