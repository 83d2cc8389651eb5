import Verif.Spec.SketchArgs
import Verif.Props.StreamTable
import Verif.Props.Params

/-! # Lemmas for C113: the object as a history of `Model/Stream.lean`, and options depending on the pre-bins -/
set_option linter.unusedSectionVars false
namespace OptBinning
open Finset Spec
variable {α : Type*} [LinearOrder α]

theorem received_append (xs ys : List (SketchOp α)) : received (xs ++ ys) = received xs ++ received ys := by
  induction xs with
  | nil => rfl
  | cons x xs ih => cases x <;> simp [received, ih]

theorem addCalls_append (xs ys : List (SketchOp α)) : addCalls (xs ++ ys) = addCalls xs + addCalls ys := by
  induction xs with
  | nil => simp [addCalls]
  | cons x xs ih => cases x <;> simp [addCalls, ih] <;> omega

section
variable {a : SketchArgs} {sc : SpecialCodes α} {hull : List ℚ → Option ℚ} {pv : ℕ → ℕ → ℕ → ℕ → ℝ}

theorem sketchRun_snoc (ops : List (SketchOp α)) (o : SketchOp α) :
    SketchObj.run a sc hull pv (ops ++ [o]) = (SketchObj.run a sc hull pv ops).step a sc hull pv o := by
  unfold SketchObj.run; rw [List.foldl_append]; rfl

theorem solve_data (o : SketchObj α) (ext : ExtSolver) :
    (o.solve a sc hull pv ext).2.data = (o.data.solve (a.stream sc) (ext (o.cfg a hull pv))).2 := by
  have h1 : (if o.data.nAdd = 0 then o
      else { o with data := (o.data.solve (a.stream sc) (ext (o.cfg a hull pv))).2, flag := o.flag || o.data.keepsPurePrebin (a.stream sc) }).data =
      (o.data.solve (a.stream sc) (ext (o.cfg a hull pv))).2 := by
    split_ifs with h
    · unfold Stream.solve; rw [if_pos h]
    · rfl
  unfold SketchObj.solve
  simp only
  cases hr : (o.data.solve (a.stream sc) (ext (o.cfg a hull pv))).1 with
  | error e => exact h1
  | ok f =>
    simp only
    by_cases hm : (rowsOf f.table.nonevent f.table.event).any Spec.Row.mixed
    · rw [if_pos hm]; exact h1
    · rw [if_neg hm]; exact h1

theorem solve_nAdd (cfg : StreamCfg α) (solver : Solver) (s : Stream α) : (s.solve cfg solver).2.nAdd = s.nAdd := by
  unfold Stream.solve
  split_ifs with h
  · rfl
  · have key : ∀ p : GK α × Stream α, s.mergeSketches cfg = .ok p → p.2.nAdd = s.nAdd := by
      intro p hp
      unfold Stream.mergeSketches at hp
      cases h1 : GK.merge { eps := cfg.eps } s.e with
      | error e => rw [h1] at hp; cases hp
      | ok r1 =>
        rw [h1] at hp
        simp only [bind, Except.bind] at hp
        cases h2 : r1.1.merge s.ne with
        | error e => rw [h2] at hp; cases hp
        | ok r2 =>
          rw [h2] at hp
          simp only [pure, Except.pure, Except.ok.injEq] at hp
          rw [← hp]
    cases hm : s.mergeSketches cfg with
    | error e => rfl
    | ok p =>
      obtain ⟨all, s1⟩ := p
      have := key _ hm
      simp only at this ⊢
      cases all.quantiles (percentiles cfg.maxPrebins) with
      | error e => exact this
      | ok splits =>
        simp only
        cases streamPrebins cfg.keepPure s1.e s1.ne splits with
        | error e => exact this
        | ok pb => exact this

/-- The data held by an object are those of a history of `Model/Stream.lean` with the same calls of `add`. -/
theorem run_data (heps : 0 < a.eps.value) (ops : List (SketchOp α)) :
    ∃ sops : List (StreamOp α), streamed sops = received ops ∧ (SketchObj.run a sc hull pv ops).data = Stream.run (a.stream sc) sops ∧
      (SketchObj.run a sc hull pv ops).data.nAdd = addCalls ops := by
  induction ops using List.reverseRecOn with
  | nil => exact ⟨[], rfl, rfl, rfl⟩
  | append_singleton ops o ih =>
    obtain ⟨sops, h1, h2, h3⟩ := ih
    rw [sketchRun_snoc, received_append, addCalls_append]
    have hrun : ∀ x, Stream.run (a.stream sc) (sops ++ [x]) = (Stream.run (a.stream sc) sops).step (a.stream sc) x := by
      intro x; unfold Stream.run; rw [List.foldl_append]; rfl
    cases o with
    | add recs =>
      refine ⟨sops ++ [.add recs], ?_, ?_, ?_⟩
      · rw [streamed_append, h1]; simp [streamed, received]
      · rw [hrun]
        simp only [SketchObj.step, SketchObj.add]
        rw [if_neg (by rintro ⟨-, h⟩; exact absurd h (ne_of_gt heps))]
        rw [← h2]; rfl
      · simp only [SketchObj.step, SketchObj.add]
        rw [if_neg (by rintro ⟨-, h⟩; exact absurd h (ne_of_gt heps))]
        simp only [Stream.add, addCalls, h3]
    | solve ext =>
      have hd : ((SketchObj.run a sc hull pv ops).step a sc hull pv (.solve ext)).data =
          ((SketchObj.run a sc hull pv ops).data.solve (a.stream sc) (ext ((SketchObj.run a sc hull pv ops).cfg a hull pv))).2 :=
        solve_data _ _
      refine ⟨sops ++ [.solve (ext ((SketchObj.run a sc hull pv ops).cfg a hull pv))], ?_, ?_, ?_⟩
      · rw [streamed_append, h1]; simp [streamed, received]
      · rw [hd, hrun, h2]; rfl
      · rw [hd, addCalls]
        simp only [addCalls]
        rw [Nat.add_zero, ← h3]
        exact solve_nAdd _ _ _

/-- What a completed `solve` means. -/
theorem solve_ok {o : SketchObj α} {ext : ExtSolver} {f : StreamFit α} (h : (o.solve a sc hull pv ext).1 = .ok f) :
    o.data.nAdd ≠ 0 ∧ (o.data.solve (a.stream sc) (ext (o.cfg a hull pv))).1 = .ok f ∧
    (rowsOf f.table.nonevent f.table.event).any Spec.Row.mixed = true := by
  unfold SketchObj.solve at h
  simp only at h
  cases hr : (o.data.solve (a.stream sc) (ext (o.cfg a hull pv))).1 with
  | error e => rw [hr] at h; cases h
  | ok g =>
    rw [hr] at h
    simp only at h
    by_cases hm : (rowsOf g.table.nonevent g.table.event).any Spec.Row.mixed
    · rw [if_pos hm] at h
      simp only [Except.ok.injEq] at h
      subst h
      refine ⟨fun h0 => ?_, rfl, hm⟩
      unfold Stream.solve at hr
      rw [if_pos h0] at hr
      cases hr
    · rw [if_neg hm] at h; cases h

/-- The number of records with a target. -/
theorem total_holding {s : Stream α} {cfg : StreamCfg α} (heps : 0 < cfg.eps) (hsc : ¬ IsSpecialValue cfg.sc none) {recs : List (Rec α)}
    (h : s.Holding cfg recs) : s.total = labelled recs := by
  have h1 := class_parts cfg.sc hsc false recs
  have h2 := class_parts cfg.sc hsc true recs
  have h3 := (h.e.eps heps).2
  have h4 := (h.ne.eps heps).2
  unfold Stream.total labelled
  rw [h3, h4, h.missE, h.missNe, h.specE, h.specNe, ← h1, ← h2]

theorem run_total (heps : 0 < a.eps.value) (hsc : ¬ IsSpecialValue sc none) (ops : List (SketchOp α)) :
    (SketchObj.run a sc hull pv ops).data.total = labelled (received ops) := by
  obtain ⟨sops, h1, h2, -⟩ := run_data (sc := sc) (hull := hull) (pv := pv) heps ops
  rw [h2, ← h1]
  exact total_holding (cfg := a.stream sc) heps hsc (holding_run (a.stream sc) heps sops).1

end

section
variable {cfg : StreamCfg α} {c : SolverCfg} {solver : Solver} {ops : List (StreamOp α)} {f : StreamFit α}

/-- The solver is asked about one pair of lists of pre-bin counts only. -/
theorem stream_local {s : Stream α} (h : (s.solve cfg solver).1 = .ok f) :
    ∃ nev ev : List ℕ, (cfg.keepPure = false → (pureMask nev ev).any id = false) ∧
      ∀ solver' : Solver, solver' nev ev = solver nev ev → (s.solve cfg solver').1 = .ok f := by
  unfold Stream.solve at h ⊢
  split_ifs at h ⊢ with h0
  cases hm : s.mergeSketches cfg with
  | error e => rw [hm] at h; cases h
  | ok p =>
    obtain ⟨all, s1⟩ := p
    rw [hm] at h
    simp only at h ⊢
    cases hq : all.quantiles (percentiles cfg.maxPrebins) with
    | error e => rw [hq] at h; cases h
    | ok splits =>
      rw [hq] at h
      simp only at h ⊢
      cases hp : streamPrebins cfg.keepPure s1.e s1.ne splits with
      | error e => rw [hp] at h; cases h
      | ok pb =>
        rw [hp] at h
        simp only at h ⊢
        refine ⟨pb.nonevent, pb.event, (streamPrebins_spec hp).2.2.2.2.1, fun solver' hs => ?_⟩
        have : fitOptimizer false solver' pb.splits pb.nonevent pb.event = fitOptimizer false solver pb.splits pb.nonevent pb.event := by
          unfold fitOptimizer; rw [hs]
        rw [this]
        exact h

/-- A solver which respects options depending on the pre-bins may be replaced by one which respects the constant options of the
pre-bins of this call; the rows contain both classes if the pre-bins do. -/
theorem stream_const (heps : 0 < cfg.eps) (hsc : ¬ IsSpecialValue cfg.sc none) (hr : Respects c solver)
    (h : ((Stream.run cfg ops).solve cfg solver).1 = .ok f) (hs : f.table.Solved) (h1 : 1 < f.nPrebins) :
    ∃ nev ev : List ℕ, ev.length = nev.length ∧ 2 ≤ nev.length ∧ (cfg.keepPure = false → (pureMask nev ev).any id = false) ∧
      ((pureMask nev ev).any id = false → ∀ k ≤ f.table.splits.length, 0 < f.table.nonevent.getD k 0 ∧ 0 < f.table.event.getD k 0) ∧
      ∃ solver' : Solver, ((Stream.run cfg ops).solve cfg solver').1 = .ok f ∧
      (∀ reg, RespectsCP c reg solver → RespectsCP { c with opts := fun _ _ => c.opts nev ev } reg solver') ∧
      (∀ reg, RespectsMIP c reg solver → RespectsMIP { c with opts := fun _ _ => c.opts nev ev } reg solver') := by
  obtain ⟨nev, ev, hkp, hl⟩ := stream_local h
  set solver' : Solver := fun x y => if x = nev ∧ y = ev then solver nev ev else .other "UNKNOWN" with hdef
  have hf' := hl solver' (by simp [hdef])
  have hcp : ∀ reg, RespectsCP c reg solver → RespectsCP { c with opts := fun _ _ => c.opts nev ev } reg solver' := by
    intro reg hr x y
    simp only [hdef]
    split_ifs with hab
    · obtain ⟨rfl, rfl⟩ := hab
      exact hr x y
    · exact ⟨by decide, by decide⟩
  have hmip : ∀ reg, RespectsMIP c reg solver → RespectsMIP { c with opts := fun _ _ => c.opts nev ev } reg solver' := by
    intro reg hr x y
    simp only [hdef]
    split_ifs with hab
    · obtain ⟨rfl, rfl⟩ := hab
      exact hr x y
    · exact ⟨by decide, by decide⟩
  have hr' : Respects { c with opts := fun _ _ => c.opts nev ev } solver' := by
    rcases hr with ⟨reg, hr⟩ | ⟨reg, hr⟩
    · exact Or.inl ⟨reg, hcp reg hr⟩
    · exact Or.inr ⟨reg, hmip reg hr⟩
  obtain ⟨nev', ev', g1, g2, g3, g4, g5⟩ := stream_rows heps hsc hr' hf' h1
  have heq : nev' = nev ∧ ev' = ev := by
    by_contra hne
    have : solver' nev' ev' = .other "UNKNOWN" := by simp only [hdef]; rw [if_neg hne]
    rw [this] at g3
    rcases hs with hs | hs
    · rw [hs] at g3; simp [solve] at g3
    · rw [hs] at g3; simp [solve] at g3
  obtain ⟨rfl, rfl⟩ := heq
  refine ⟨nev', ev', g1, g2, hkp, fun hp k hk => ?_, solver', hf', hcp, hmip⟩
  obtain ⟨p1, p2⟩ := pureMask_false g1.symm hp
  obtain ⟨s, e, hb, -, e1, e2⟩ := g5 k hk
  have hse : s ≤ e := hb.1
  have hlt : e < nev'.length := hb.2.1
  have hin : s ∈ Icc s e := by simp [hse]
  have hpos : ∀ l : List ℕ, l.length = nev'.length → (∀ x ∈ l, 0 < x) → 0 < ∑ i ∈ Icc s e, l.getD i 0 := by
    intro l hl hx
    refine lt_of_lt_of_le ?_ (Finset.single_le_sum (fun _ _ => Nat.zero_le _) hin)
    rw [List.getD_eq_getElem _ _ (by omega)]
    exact hx _ (List.getElem_mem _)
  rw [e1, e2]
  exact ⟨hpos _ rfl p1, hpos _ g1 p2⟩

end
end OptBinning
