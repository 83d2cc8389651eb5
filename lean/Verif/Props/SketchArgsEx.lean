import Verif.Props.SketchArgs3
import Verif.Props.ParamsFit
import Verif.Props.StreamHistory

/-!
# C113: concrete histories
-/
set_option linter.unusedSectionVars false
namespace OptBinning
open Spec

/-- `OptimalBinningSketch(eps=0.25, max_n_prebins=4, monotonic_trend=None, min_n_bins=1)`. -/
def exSketchArgs : SketchArgs := { base := { maxPrebins := 4, trend := .none }, eps := .num (1 / 4) }

theorem exSketchArgs_valid : checkSketch exSketchArgs = .ok () := by decide +kernel

/-- Non-vacuity of the theorems of C113 on the table: an object with a `solve` in between, whose second `solve` uses two pre-bins and has two bins. -/
theorem exSketch (hull : List ℚ → Option ℚ) (pv : ℕ → ℕ → ℕ → ℕ → ℝ) {o : SketchObj ℕ}
    (ho : SketchObj.run exSketchArgs .none hull pv [.add exStream, .solve keepAll] = o) :
    RespectsCP (o.cfg exSketchArgs hull pv) 0 (keepAll (o.cfg exSketchArgs hull pv)) ∧
    ∃ f, (o.solve exSketchArgs .none hull pv keepAll).1 = .ok f ∧ f.nPrebins = 2 ∧ f.table.Solved ∧ f.table.splits.length = 1 := by
  refine ⟨keepAll_respects _, ?_⟩
  have heps : 0 < exSketchArgs.eps.value := by norm_num [exSketchArgs, XQ.value]
  have hsc : ¬ IsSpecialValue (.none : SpecialCodes ℕ) none := by simp [IsSpecialValue]
  have hr : Respects (o.cfg exSketchArgs hull pv) (keepAll (o.cfg exSketchArgs hull pv)) := Or.inl ⟨0, keepAll_respects _⟩
  subst ho
  obtain ⟨f, hf⟩ := (C113_solvable (a := exSketchArgs) (sc := .none) (hull := hull) (pv := pv) (ops := [.add exStream, .solve keepAll])
    (ext := keepAll) heps (by decide) hsc hr).2 (by intro ev; cases ev <;> decide +kernel)
  refine ⟨f, hf, ?_⟩
  have hok := (solve_ok hf).2.1
  have hst : exSketchArgs.stream (.none : SpecialCodes ℕ) = exStreamCfg := by
    simp [SketchArgs.stream, exSketchArgs, exStreamCfg, XQ.value, Divergence.keepsPure]
  have hrun : ∃ s, (SketchObj.run exSketchArgs .none hull pv [.add exStream, .solve keepAll]).data = Stream.run exStreamCfg [.add exStream, .solve s] := by
    refine ⟨keepAll ((SketchObj.run exSketchArgs .none hull pv [.add exStream]).cfg exSketchArgs hull pv), ?_⟩
    rw [show ([.add exStream, .solve keepAll] : List (SketchOp ℕ)) = [.add exStream] ++ [.solve keepAll] from rfl, sketchRun_snoc]
    rw [SketchObj.step, solve_data, hst]
    have : (SketchObj.run exSketchArgs .none hull pv [.add exStream]).data = Stream.run exStreamCfg [.add exStream] := by
      unfold SketchObj.run Stream.run
      simp only [List.foldl_cons, List.foldl_nil, SketchObj.step, SketchObj.add, Stream.step]
      rw [if_neg (fun h => absurd h.2 (ne_of_gt heps)), SketchObj.new, hst]
    rw [this]
    rfl
  obtain ⟨s, hs⟩ := hrun
  rw [hst] at hok
  have hdata := hok
  rw [hs] at hok
  have h2 := (C72_solve_not_idempotent s (keepAll ((SketchObj.run exSketchArgs .none hull pv [.add exStream, .solve keepAll]).cfg exSketchArgs hull pv))).2
  rw [hok] at h2
  simp only [Except.map, Except.ok.injEq] at h2
  obtain ⟨K, cand, pb, -, -, -, -, -, -, -, q8, -, q10⟩ := solve_history (cfg := exStreamCfg) (by norm_num [exStreamCfg]) (by simp [exStreamCfg, IsSpecialValue]) hr hok
  have hp : pb.length = 1 := by omega
  rcases q10 with ⟨h0, -⟩ | ⟨-, sol, s1, s2, s3, s4, -⟩
  · rw [h0] at hp; simp at hp
  · have hl : ∀ ev, ((K ev).counts pb).length = 2 := fun ev => by rw [length_counts, hp]
    have hacc := C08_every_partition_accepted (((SketchObj.run exSketchArgs .none hull pv [.add exStream, .solve keepAll]).cfg exSketchArgs hull pv).input
      ((K false).counts pb) ((K true).counts pb)) ⟨(hl true).trans (hl false).symm, lt_of_lt_of_eq (by decide : 0 < 2) (hl false).symm⟩ rfl rfl
      (fun _ => true) ⟨lt_of_lt_of_eq (by decide : 0 < 2) (hl false).symm, rfl⟩
    have hk := keepAll_solve _ ((K false).counts pb) ((K true).counts pb) hacc
    rw [hl] at hk
    rw [hp, hk] at s3
    obtain ⟨t1, t2⟩ := Prod.mk.inj s3
    refine ⟨by omega, ?_, ?_⟩
    · unfold Fitted.Solved; rw [← t1]; simp
    · rw [s4, ← t2]
      obtain ⟨x, rfl⟩ := List.length_eq_one_iff.1 hp
      rfl

/-- C113 finding, concretely: after the first `solve` of this history, which completes with one pre-bin, `information()` raises
`AttributeError`; after the second, with two pre-bins, it works. -/
theorem C113_information_example (hull : List ℚ → Option ℚ) (pv : ℕ → ℕ → ℕ → ℕ → ℝ) :
    (SketchObj.run exSketchArgs (.none : SpecialCodes ℕ) hull pv [.add exStream, .solve keepAll]).information = .error "AttributeError" ∧
    (SketchObj.run exSketchArgs (.none : SpecialCodes ℕ) hull pv [.add exStream, .solve keepAll, .solve keepAll]).information = .ok () := by
  have heps : 0 < exSketchArgs.eps.value := by norm_num [exSketchArgs, XQ.value]
  have hsc : ¬ IsSpecialValue (.none : SpecialCodes ℕ) none := by simp [IsSpecialValue]
  have hr : ∀ c, Respects c (keepAll c) := fun c => Or.inl ⟨0, keepAll_respects c⟩
  have hans : ∀ ops : List (SketchOp ℕ), (∀ x ∈ ops, x = .add exStream ∨ x = .solve keepAll) → Answering ops := by
    intro ops h ext hx c
    rcases h _ hx with h | h
    · cases h
    · cases h; exact hr c
  have hst : exSketchArgs.stream (.none : SpecialCodes ℕ) = exStreamCfg := by
    simp [SketchArgs.stream, exSketchArgs, exStreamCfg, XQ.value, Divergence.keepsPure]
  have hone : ∀ f : StreamFit ℕ, ((SketchObj.run exSketchArgs (.none : SpecialCodes ℕ) hull pv [.add exStream]).solve exSketchArgs .none hull pv keepAll).1 = .ok f →
      f.nPrebins = 1 := by
    intro f hf
    have hok := (solve_ok hf).2.1
    have : (SketchObj.run exSketchArgs .none hull pv [.add exStream]).data = Stream.run exStreamCfg [.add exStream] := by
      unfold SketchObj.run Stream.run
      simp only [List.foldl_cons, List.foldl_nil, SketchObj.step, SketchObj.add, Stream.step]
      rw [if_neg (fun h => absurd h.2 (ne_of_gt heps)), SketchObj.new, hst]
    rw [hst, this] at hok
    have h2 := (C72_solve_not_idempotent (keepAll ((SketchObj.run exSketchArgs .none hull pv [.add exStream]).cfg exSketchArgs hull pv)) exGiveUp).1
    rw [hok] at h2
    simpa [Except.map] using h2
  obtain ⟨f1, hf1⟩ := (C113_solvable (a := exSketchArgs) (sc := (.none : SpecialCodes ℕ)) (hull := hull) (pv := pv) (ops := [.add exStream])
    (ext := keepAll) heps (by decide) hsc (hr _)).2 (by intro ev; cases ev <;> decide +kernel)
  constructor
  · refine (C113_information (hull := hull) (pv := pv) heps (by decide) hsc [.add exStream, .solve keepAll] (hans _ (by simp))).2.2.2 ⟨⟨[.add exStream], keepAll, [], f1, rfl, hf1, trivial⟩, ?_⟩
    rintro ⟨pre, ext, post, f, h1, h2, h3⟩
    have hpre : pre = [.add exStream] ∧ ext = keepAll := by
      match pre, h1 with
      | [], h1 => simp at h1
      | [x], h1 =>
        simp only [List.cons_append, List.nil_append, List.cons.injEq, SketchOp.solve.injEq] at h1
        exact ⟨by rw [h1.1], h1.2.1.symm⟩
      | x :: y :: pre, h1 => simp at h1
    obtain ⟨rfl, rfl⟩ := hpre
    have := hone f h2
    omega
  · obtain ⟨-, f, hf, hn, -⟩ := exSketch hull pv rfl
    exact (C113_information (hull := hull) (pv := pv) heps (by decide) hsc [.add exStream, .solve keepAll, .solve keepAll] (hans _ (by simp))).1.2
      ⟨[.add exStream, .solve keepAll], keepAll, [], f, rfl, hf, by omega⟩

/-- C74 finding, concretely: one record of a rare category. -/
example {c : SolverCfg} {solver : Solver} (hr : Respects c solver) :
    (CWorld.run .none ([.new, .add 0 [⟨none, some false, 1⟩]] : List (SkOp (Rec ℕ)))).solveCall {} solver 0 = .error "ValueError" ∧
    ∃ f, (CWorld.run .none ([.new, .add 0 [⟨none, some false, 1⟩, ⟨none, some true, 1⟩]] : List (SkOp (Rec ℕ)))).solveCall {} solver 0 = .ok f := by
  have hs : ∀ l : List (Rec ℕ), ownedAll (fun _ _ => true) ([.new, .add 0 l] : List (SkOp (Rec ℕ))) = some [some l] := fun l => by rfl
  constructor
  · refine (C74_completes (by decide) (by simp [IsSpecialValue]) hr (hs _) (i := 0) rfl rfl).2.1.2 ⟨?_, true, by simp⟩
    intro v hv
    have := hv.1.2
    simp at this
  · refine (C74_completes (by decide) (by simp [IsSpecialValue]) hr (hs _) (i := 0) rfl rfl).1.2 (Or.inl ⟨?_, by intro ev; cases ev <;> simp⟩)
    intro v hv
    have := hv.1.2
    simp at this

end OptBinning
