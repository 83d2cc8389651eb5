import Verif.Props.SketchProcessArgs
import Verif.Props.SketchArgsEx

/-!
# C119: a concrete process
-/
set_option linter.unusedSectionVars false
namespace OptBinning
open Spec

/-- `BinningProcessSketch(["x"], max_n_prebins=4, max_bin_size=0.1, binning_fit_params={"x": {"monotonic_trend": None, "eps": 0.25}})`. -/
def exParamsPS : ParamsPS := { maxPrebins := 4, maxBinSize := some (.num (1 / 10)) }

def exSketchFit : Option (PDict (List SketchOpt)) := some [("x", [.trend .none, .eps (.num (1 / 4))])]

/-- A solver that keeps all pre-bins; the statistics of a table are not read. -/
noncomputable def exSketchEnv (hull : List ℚ → Option ℚ) (pv : ℕ → ℕ → ℕ → ℕ → ℝ) : SketchEnv ℕ ℚ ℚ where
  special := .none
  hull := hull
  pv := pv
  ext := fun _ _ => keepAll
  metrics := fun _ => .ok fun _ => 0
  tr := fun _ _ _ => .error "not read"

def exSketchCfg : SkProcCfg ℚ ℚ := { names := ["x"] }

/-- One chunk with the column "x" and another column. -/
def exChunk : Chunk (Option ℕ) (Option Bool) :=
  { cols := [("x", exStream.map Rec.x), ("z", [])], y := exStream.map Rec.y, rows := exStream.length }

theorem exProcess_options : sketchParamsOf exSketchFit "x" = [.trend .none, .eps (.num (1 / 4))] ∧
    optionsSketch exParamsPS (sketchParamsOf exSketchFit "x") = exSketchArgs := ⟨rfl, rfl⟩

theorem exParamsPS_valid : ValidParamsPS exParamsPS := (C119_checks _).1.1 (by decide +kernel)

/-- Non-vacuity of the theorems of C119 on tables: a process in which `solve` was called twice, with a table of two bins.  Finding: the argument
`max_bin_size` of the process (10%) has no effect: both bins have at least two of the five records. -/
theorem C119_max_bin_size_unused (hull : List ℚ → Option ℚ) (pv : ℕ → ℕ → ℕ → ℕ → ℝ) :
    (∀ k c, RespectsCP c 0 ((exSketchEnv hull pv).ext "x" k c)) ∧
    ∃ f, Processed exParamsPS exSketchFit (exSketchEnv hull pv) exSketchCfg [.add exChunk, .solve] "x" exSketchArgs f 5 ∧
      f.table.Solved ∧ 1 < f.nPrebins ∧ f.table.splits.length = 1 ∧
      ∀ k ≤ 1, ¬ (((f.table.nonevent.getD k 0 + f.table.event.getD k 0 : ℕ) : ℚ) < 1 / 10 * 5 + 1) := by
  have hr : ∀ k c, RespectsCP c 0 ((exSketchEnv hull pv).ext "x" k c) := fun _ c => keepAll_respects c
  have hr' : ∀ m k c, Respects c ((exSketchEnv hull pv).ext m k c) := fun _ _ c => Or.inl ⟨0, keepAll_respects c⟩
  refine ⟨hr, ?_⟩
  have hnames : ∀ m ∈ exSketchCfg.names, m = "x" := by intro m hm; simpa [exSketchCfg] using hm
  have hn : exSketchCfg.names.Nodup := by decide
  have hl : ∀ m ∈ exSketchCfg.names, ((sketchParamsOf exSketchFit m).map skOptName).Nodup := by
    intro m hm; rw [hnames m hm]; decide
  have hk : ∀ m ∈ exSketchCfg.names, ∀ o ∈ sketchParamsOf exSketchFit m, SketchOption o := by
    intro m hm; rw [hnames m hm, exProcess_options.1]; simp [SketchOption]
  have heps : 0 < exSketchArgs.eps.value := by norm_num [exSketchArgs, XQ.value]
  have hsc : ¬ IsSpecialValue (exSketchEnv hull pv).special none := by simp [IsSpecialValue, exSketchEnv]
  have hm : ∀ m ∈ exSketchCfg.names, 0 < (optionsSketch exParamsPS (sketchParamsOf exSketchFit m)).eps.value ∧
      1 < (optionsSketch exParamsPS (sketchParamsOf exSketchFit m)).base.maxPrebins := by
    intro m hm; rw [hnames m hm, exProcess_options.2]; exact ⟨heps, by decide⟩
  have hrec : ∀ ops : List (SkProcOp (SketchVar ℕ) (Option ℕ) (Option Bool) ℚ), recordsFor "x" (.add exChunk :: ops) = exStream ++ recordsFor "x" ops := by
    intro ops
    rfl
  have hboth : ∀ ops : List (SkProcOp (SketchVar ℕ) (Option ℕ) (Option Bool) ℚ), recordsFor "x" ops = [] →
      ∀ m ∈ exSketchCfg.names, BothClasses (exSketchEnv hull pv).special (recordsFor m (.add exChunk :: ops)) := by
    intro ops h0 m hm
    rw [hnames m hm, hrec, h0]
    intro ev
    cases ev <;> (simp only [exSketchEnv]; decide +kernel)
  have hq1 : Quiet (sketchVars exParamsPS exSketchFit (exSketchEnv hull pv)) exSketchCfg {} [.add exChunk] := by
    refine C119_adds exParamsPS_valid hn rfl hl hk ?_ [exChunk] ?_
    · intro m hm'; rw [hnames m hm', exProcess_options.2]; exact ⟨by decide, ne_of_gt heps⟩
    · intro c hc p hp hpn
      rw [List.mem_singleton.1 hc] at hp ⊢
      simp only [exChunk, List.mem_cons, List.not_mem_nil, or_false] at hp
      rcases hp with rfl | rfl
      · simp [exChunk]
      · exact absurd (hnames _ hpn) (by decide)
  have hd : ∀ ops : List (SkProcOp (SketchVar ℕ) (Option ℕ) (Option Bool) ℚ), (∀ c, SkProcOp.add c ∈ ops → c = exChunk) → DistinctColumns ops := by
    intro ops h c hc
    rw [h c hc]
    decide
  have hd1 : DistinctColumns ([.add exChunk] : List (SkProcOp (SketchVar ℕ) (Option ℕ) (Option Bool) ℚ)) := hd _ (by simp)
  have hd2 : DistinctColumns ([.add exChunk, .solve] : List (SkProcOp (SketchVar ℕ) (Option ℕ) (Option Bool) ℚ)) := hd _ (by simp)
  have hmet : ∀ f, ∃ s, (exSketchEnv hull pv).metrics f = .ok s := fun f => ⟨_, rfl⟩
  have c1 := (C76_counters hq1).2.1
  have s1 := (C119_completes (cfg := exSketchCfg) exParamsPS_valid hn rfl hl hm hsc hr' hmet hq1 hd1 (by rw [c1]; simp)).2 (hboth [] rfl)
  have hq2 : Quiet (sketchVars exParamsPS exSketchFit (exSketchEnv hull pv)) exSketchCfg {} ([.add exChunk] ++ [.solve]) :=
    (sketchQuiet_append _ _ _).2 ⟨hq1, s1, trivial⟩
  have c2 := (C76_counters hq2).2.1
  have s2 := (C119_completes (cfg := exSketchCfg) exParamsPS_valid hn rfl hl hm hsc hr' hmet hq2 hd2 (by rw [c2]; simp)).2 (hboth [.solve] rfl)
  have hq3 : Quiet (sketchVars exParamsPS exSketchFit (exSketchEnv hull pv)) exSketchCfg {} ([.add exChunk, .solve] ++ [.solve]) :=
    (sketchQuiet_append _ _ _).2 ⟨hq2, s2, trivial⟩
  obtain ⟨o, f, g1, -, g3, g4⟩ := C119_table (n := "x") exParamsPS_valid hn (by decide) (hl "x" (by decide)) hq3 hd2
  have hP : Processed exParamsPS exSketchFit (exSketchEnv hull pv) exSketchCfg [.add exChunk, .solve] "x" exSketchArgs f 5 :=
    ⟨by decide +kernel, hn, by decide, hl "x" (by decide), exProcess_options.2.symm, hq3, hd2, heps, hsc, ⟨o, g1, g3⟩, by rw [hrec]; decide +kernel⟩
  obtain ⟨-, f', k1, k2, k3, k4⟩ := exSketch hull pv rfl
  have hops : sketchOps ((exSketchEnv hull pv).ext "x") "x" 0 ([.add exChunk, .solve] : List (SkProcOp (SketchVar ℕ) (Option ℕ) (Option Bool) ℚ)) =
      [.add exStream, .solve keepAll] := rfl
  rw [exProcess_options.2, hops] at g4
  have hf : f = f' := by
    have : (.ok f : Except String (StreamFit ℕ)) = .ok f' := g4.symm.trans k1
    exact Except.ok.inj this
  subst hf
  refine ⟨f, hP, k3, by omega, k4, fun k hk => ?_⟩
  obtain ⟨-, -, -, -, -, -, p1, p2⟩ := (C119_limits hP (hr' "x") k3 (by omega)).2.2 k (by omega) _ _ rfl rfl
  rw [not_lt]
  have : (2 : ℚ) ≤ ((f.table.nonevent.getD k 0 + f.table.event.getD k 0 : ℕ) : ℚ) := by exact_mod_cast (by omega)
  linarith

/-- Finding: the values of the options in `binning_fit_params` are not checked: with `min_bin_size=2` and `eps=5`, which the constructor of
`OptimalBinningSketch` refuses, chunks can be added to the process. -/
theorem C119_unchecked (hull : List ℚ → Option ℚ) (pv : ℕ → ℕ → ℕ → ℕ → ℝ) :
    checkSketch (optionsSketch {} [.minBinSize (some (.num 2)), .eps (.num 5)]) = .error "ValueError" ∧
    checkParametersPS {} = .ok () ∧
    ∀ (chunks : List (Chunk (Option ℕ) (Option Bool))), (∀ c ∈ chunks, ∀ p ∈ c.cols, p.1 ∈ exSketchCfg.names → p.2.length = c.y.length) →
      Quiet (sketchVars {} (some [("x", [.minBinSize (some (.num 2)), .eps (.num 5)])]) (exSketchEnv hull pv)) exSketchCfg {} (chunks.map SkProcOp.add) := by
  refine ⟨by decide +kernel, by decide +kernel, fun chunks hc => ?_⟩
  have hnames : ∀ m ∈ exSketchCfg.names, m = "x" := by intro m hm; simpa [exSketchCfg] using hm
  have e : sketchParamsOf (some [("x", [.minBinSize (some (.num 2)), .eps (.num 5)])]) "x" = [.minBinSize (some (.num 2)), .eps (.num 5)] := rfl
  refine C119_adds ((C119_checks _).1.1 (by decide +kernel)) (by decide) rfl ?_ ?_ ?_ chunks hc
  · intro m hm; rw [hnames m hm, e]; decide
  · intro m hm; rw [hnames m hm, e]; simp [SketchOption]
  · intro m hm
    rw [hnames m hm, e]
    refine ⟨by decide, ?_⟩
    show (5 : ℚ) ≠ 0
    norm_num

end OptBinning
