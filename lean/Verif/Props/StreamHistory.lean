import Verif.Props.StreamTable

/-! # C72: batches, repeated solving, and examples for C68–C72 -/
namespace OptBinning
open Finset
open Spec (usedValues specialCount missingCount classCount IsSpecialValue)
variable {α : Type*} [LinearOrder α]

/-- The two objects hold the same data; only the number of calls may differ. -/
def Stream.SameData (s t : Stream α) : Prop :=
  s.e = t.e ∧ s.ne = t.ne ∧ s.missE = t.missE ∧ s.missNe = t.missNe ∧ s.specE = t.specE ∧ s.specNe = t.specNe ∧ (s.nAdd = 0 ↔ t.nAdd = 0)

theorem Stream.SameData.mergeSketches {cfg : StreamCfg α} {s t : Stream α} (h : s.SameData t) :
    (∃ m, s.mergeSketches cfg = .error m ∧ t.mergeSketches cfg = .error m) ∨
    ∃ k s' t', s.mergeSketches cfg = .ok (k, s') ∧ t.mergeSketches cfg = .ok (k, t') ∧ s'.SameData t' := by
  obtain ⟨h1, h2, h3, h4, h5, h6, h7⟩ := h
  unfold Stream.mergeSketches
  rw [h1, h2]
  cases hr : GK.merge { eps := cfg.eps } t.e with
  | error m => left; exact ⟨m, rfl, rfl⟩
  | ok r1 =>
    cases hr2 : r1.1.merge t.ne with
    | error m => left; exact ⟨m, by simp [bind, Except.bind, hr2], by simp [bind, Except.bind, hr2]⟩
    | ok r2 =>
      right
      refine ⟨r2.1, { s with e := r1.2, ne := r2.2 }, { t with e := r1.2, ne := r2.2 }, ?_, ?_, rfl, rfl, h3, h4, h5, h6, h7⟩
      · simp [bind, Except.bind, hr2, pure, Except.pure]
      · simp [bind, Except.bind, hr2, pure, Except.pure]

theorem Stream.SameData.solve {cfg : StreamCfg α} {s t : Stream α} (h : s.SameData t) (solver : Solver) :
    (s.solve cfg solver).1 = (t.solve cfg solver).1 ∧ (s.solve cfg solver).2.SameData (t.solve cfg solver).2 := by
  have hm := h.mergeSketches (cfg := cfg)
  obtain ⟨h1, h2, h3, h4, h5, h6, h7⟩ := id h
  unfold Stream.solve
  by_cases h0 : s.nAdd = 0
  · rw [if_pos h0, if_pos (h7.1 h0)]; exact ⟨rfl, h⟩
  · rw [if_neg h0, if_neg (fun hc => h0 (h7.2 hc))]
    rcases hm with ⟨m, e1, e2⟩ | ⟨k, s', t', e1, e2, h'⟩
    · rw [e1, e2]; exact ⟨rfl, h⟩
    · rw [e1, e2]
      simp only
      cases k.quantiles (percentiles cfg.maxPrebins) with
      | error m => exact ⟨rfl, h'⟩
      | ok splits =>
        obtain ⟨g1, g2, g3, g4, g5, g6, g7⟩ := h'
        simp only [g1, g2, h1, h2, h3, h4, h5, h6]
        cases streamPrebins cfg.keepPure t'.e t'.ne splits with
        | error m => exact ⟨rfl, rfl, rfl, g3, g4, g5, g6, g7⟩
        | ok pb => exact ⟨rfl, rfl, rfl, g3, g4, g5, g6, g7⟩

theorem Stream.SameData.add {cfg : StreamCfg α} {s t : Stream α} (h : s.SameData t) (recs : List (Rec α)) :
    (s.add cfg recs).SameData (t.add cfg recs) := by
  obtain ⟨h1, h2, h3, h4, h5, h6, h7⟩ := h
  simp [Stream.SameData, Stream.add, h1, h2, h3, h4, h5, h6]

theorem Stream.SameData.foldl {cfg : StreamCfg α} {s t : Stream α} (h : s.SameData t) (ops : List (StreamOp α)) :
    (ops.foldl (Stream.step cfg) s).SameData (ops.foldl (Stream.step cfg) t) := by
  induction ops generalizing s t with
  | nil => exact h
  | cons o ops ih =>
    cases o with
    | add recs => exact ih (h.add recs)
    | solve solver => exact ih (h.solve solver).2

theorem Stream.add_add (cfg : StreamCfg α) (s : Stream α) (a b : List (Rec α)) :
    ((s.add cfg a).add cfg b).SameData (s.add cfg (a ++ b)) := by
  have hm : ∀ ev, (splitData cfg.sc {} (a ++ b)).missing.countP (fun r => r.y == some ev) =
      (splitData cfg.sc {} a).missing.countP (fun r => r.y == some ev) + (splitData cfg.sc {} b).missing.countP (fun r => r.y == some ev) := by
    intro ev
    have := missN_eq cfg.sc ev
    unfold missN at this
    rw [this, this, this]; simp [missingCount]
  have hs : ∀ ev, (splitData cfg.sc {} (a ++ b)).special.countP (fun r => r.y == some ev) =
      (splitData cfg.sc {} a).special.countP (fun r => r.y == some ev) + (splitData cfg.sc {} b).special.countP (fun r => r.y == some ev) := by
    intro ev
    have := specN_eq cfg.sc ev
    unfold specN at this
    rw [this, this, this]; simp [specialCount]
  have hall : ∀ (k : GK α) (x y : List α), k.addAll (x ++ y) = (k.addAll x).addAll y := by
    intro k x y; simp [GK.addAll, List.foldl_append]
  simp only [Stream.SameData, Stream.add, cleanValues_eq, usedValues_append, hall, hm, hs]
  simp [Nat.add_assoc]

section
variable {cfg : StreamCfg α}

/-- C72: it does not matter for any later call of `solve` whether records arrive in one batch or in two consecutive ones. -/
theorem C72_batches (before after : List (StreamOp α)) (a b : List (Rec α)) (solver : Solver) :
    ((Stream.run cfg (before ++ .add a :: .add b :: after)).solve cfg solver).1 =
    ((Stream.run cfg (before ++ .add (a ++ b) :: after)).solve cfg solver).1 := by
  unfold Stream.run
  rw [List.foldl_append, List.foldl_append]
  simp only [List.foldl_cons, Stream.step]
  exact ((Stream.add_add cfg _ a b).foldl after |>.solve solver).1

/-- C72: an empty batch changes nothing once data was added. -/
theorem C72_empty_batch (before after : List (StreamOp α)) (a : List (Rec α)) (solver : Solver) :
    ((Stream.run cfg (before ++ .add a :: .add [] :: after)).solve cfg solver).1 =
    ((Stream.run cfg (before ++ .add a :: after)).solve cfg solver).1 := by
  have := C72_batches (cfg := cfg) before after a [] solver
  rwa [List.append_nil] at this

/-- C72: repeated solving keeps the records: the table of a later `solve` still accounts for all of them (the totals of C68 depend on the records only). -/
theorem C72_solve_keeps_records_partial {c : SolverCfg} {solver solver' : Solver} {ops : List (StreamOp α)} {f : StreamFit α}
    (heps : 0 < cfg.eps) (hsc : ¬ IsSpecialValue cfg.sc none) (hr : Respects c solver)
    (hf : ((Stream.run cfg (ops ++ [.solve solver'])).solve cfg solver).1 = .ok f) (ev : Bool) (h : 1 < f.nPrebins) :
    (f.table.column ev).sum = classCount ev (streamed ops) := by
  have := C68_total_partial heps hsc hr hf ev (Or.inl h)
  rwa [streamed_append, show streamed [StreamOp.solve (α := α) solver'] = [] from rfl, List.append_nil] at this

/-- The number of pre-bins and the object afterwards do not depend on the solver. -/
theorem solve_indep (s : Stream α) (solver solver' : Solver) :
    (s.solve cfg solver).1.map StreamFit.nPrebins = (s.solve cfg solver').1.map StreamFit.nPrebins ∧
    (s.solve cfg solver).2 = (s.solve cfg solver').2 := by
  unfold Stream.solve
  split_ifs with h0
  · exact ⟨rfl, rfl⟩
  · cases s.mergeSketches cfg with
    | error m => exact ⟨rfl, rfl⟩
    | ok r =>
      obtain ⟨all, s1⟩ := r
      simp only
      cases all.quantiles (percentiles cfg.maxPrebins) with
      | error m => exact ⟨rfl, rfl⟩
      | ok splits =>
        simp only
        cases streamPrebins cfg.keepPure s1.e s1.ne splits with
        | error m => exact ⟨rfl, rfl⟩
        | ok pb => exact ⟨rfl, rfl⟩

end

/-! ## examples -/

/-- The records of the example, in order of arrival. -/
def exStream : List (Rec ℕ) :=
  [⟨some 6, some true, 1⟩, ⟨some 5, some true, 1⟩, ⟨some 6, some false, 1⟩, ⟨some 1, some false, 1⟩, ⟨some 2, some false, 1⟩]

def exStreamCfg : StreamCfg ℕ := { eps := 1/4, sc := .none, maxPrebins := 4 }

/-- A solver that gives up. -/
def exGiveUp : Solver := fun _ _ => .other "UNKNOWN"

/-- C72 finding: solving changes the sketches.  Two calls of `solve` without new data in between can give different numbers of pre-bins (here one and
then two, for every solver). -/
theorem C72_solve_not_idempotent (s s' : Solver) :
    ((Stream.run exStreamCfg [.add exStream]).solve exStreamCfg s).1.map StreamFit.nPrebins = .ok 1 ∧
    ((Stream.run exStreamCfg [.add exStream, .solve s]).solve exStreamCfg s').1.map StreamFit.nPrebins = .ok 2 := by
  constructor
  · rw [(solve_indep _ s exGiveUp).1]; decide +kernel
  · rw [(solve_indep _ s' exGiveUp).1]
    have : Stream.run exStreamCfg [.add exStream, .solve s] = Stream.run exStreamCfg [.add exStream, .solve exGiveUp] := by
      unfold Stream.run
      simp only [List.foldl_cons, List.foldl_nil, Stream.step]
      exact (solve_indep _ s exGiveUp).2
    rw [this]; decide +kernel

/-- Non-vacuity for C68–C72: four batches and a `solve` in between, with a special code and missing values; the last `solve` has two pre-bins. -/
def exStreamOps (s : Solver) : List (StreamOp ℕ) :=
  [.add exStream, .add [⟨some 99, some true, 1⟩, ⟨none, some false, 1⟩], .solve s, .add [⟨some 3, some true, 1⟩], .add [⟨none, some true, 1⟩]]

def exStreamCodes : StreamCfg ℕ := { eps := 1/4, sc := .list [some 99], maxPrebins := 4 }

example : 0 < exStreamCodes.eps ∧ ¬ IsSpecialValue exStreamCodes.sc none ∧ Respects { div := fun _ _ => 0 } (exSolver fun _ _ => 0) ∧
    2 ≤ exStreamCodes.maxPrebins ∧ ∃ f, ((Stream.run exStreamCodes (exStreamOps (exSolver fun _ _ => 0))).solve exStreamCodes
      (exSolver fun _ _ => 0)).1 = .ok f ∧ f.nPrebins = 2 ∧ (f.table.column true).sum = 5 ∧ (f.table.column false).sum = 4 := by
  have h1 : (0 : ℚ) < exStreamCodes.eps := by norm_num [exStreamCodes]
  have h2 : ¬ IsSpecialValue exStreamCodes.sc none := by simp [exStreamCodes, IsSpecialValue]
  have hr := exSolver_respects fun _ _ => 0
  refine ⟨h1, h2, hr, by decide, ?_⟩
  have hn : ((Stream.run exStreamCodes (exStreamOps (exSolver fun _ _ => 0))).solve exStreamCodes
      (exSolver fun _ _ => 0)).1.map StreamFit.nPrebins = .ok 2 := by
    rw [(solve_indep _ _ exGiveUp).1]
    have : Stream.run exStreamCodes (exStreamOps (exSolver fun _ _ => 0)) = Stream.run exStreamCodes (exStreamOps exGiveUp) := by
      unfold Stream.run exStreamOps
      simp only [List.foldl_cons, List.foldl_nil, Stream.step]
      rw [(solve_indep _ (exSolver fun _ _ => 0) exGiveUp).2]
    rw [this]; decide +kernel
  cases hf : ((Stream.run exStreamCodes (exStreamOps (exSolver fun _ _ => 0))).solve exStreamCodes (exSolver fun _ _ => 0)).1 with
  | error m => rw [hf] at hn; simp [Except.map] at hn
  | ok f =>
    rw [hf] at hn
    simp only [Except.map, Except.ok.injEq] at hn
    refine ⟨f, rfl, hn, ?_, ?_⟩
    · rw [C68_total_partial h1 h2 hr hf true (Or.inl (by omega))]; rfl
    · rw [C68_total_partial h1 h2 hr hf false (Or.inl (by omega))]; rfl

/-- C68 finding, concretely: three records, two of them events, one of these missing.  The Event column adds up to three. -/
theorem C68_double_count {c : SolverCfg} {solver : Solver} (hr : Respects c solver) :
    ∃ f, ((Stream.run exStreamCfg [.add [⟨some 1, some true, 1⟩, ⟨some 1, some false, 1⟩, ⟨none, some true, 1⟩]]).solve exStreamCfg solver).1 =
      .ok f ∧ (f.table.column true) = [2, 0, 1] := by
  set ops : List (StreamOp ℕ) := [.add [⟨some 1, some true, 1⟩, ⟨some 1, some false, 1⟩, ⟨none, some true, 1⟩]] with hops
  have hn : ((Stream.run exStreamCfg ops).solve exStreamCfg solver).1.map StreamFit.nPrebins = .ok 1 := by
    rw [(solve_indep _ _ exGiveUp).1]; decide +kernel
  cases hf : ((Stream.run exStreamCfg ops).solve exStreamCfg solver).1 with
  | error m => rw [hf] at hn; simp [Except.map] at hn
  | ok f =>
    rw [hf] at hn
    simp only [Except.map, Except.ok.injEq] at hn
    refine ⟨f, rfl, ?_⟩
    rw [(C68_single_prebin (by norm_num [exStreamCfg]) (by simp [exStreamCfg, IsSpecialValue]) hr hf hn true).2]
    decide

/-- C70 finding: the number of refinements that `information` reports is always zero, because the counter is reset in every round. -/
theorem C70_refinements_zero {cfg : StreamCfg α} {c : SolverCfg} {solver : Solver} {ops : List (StreamOp α)} {f : StreamFit α}
    (heps : 0 < cfg.eps) (hsc : ¬ IsSpecialValue cfg.sc none) (hr : Respects c solver)
    (hf : ((Stream.run cfg ops).solve cfg solver).1 = .ok f) : f.refinements = 0 := by
  obtain ⟨K, cand, pb, -, -, -, -, -, -, -, -, h9, -⟩ := solve_history heps hsc hr hf
  exact h9

end OptBinning
