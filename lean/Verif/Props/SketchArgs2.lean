import Verif.Props.SketchArgs

/-!
# C113, continued: what an object remembers between calls
-/
set_option linter.unusedSectionVars false
namespace OptBinning
open Finset Spec

section
variable {α : Type*} [LinearOrder α]
variable {a : SketchArgs} {sc : SpecialCodes α} {hull : List ℚ → Option ℚ} {pv : ℕ → ℕ → ℕ → ℕ → ℝ}

/-- The solver of every call of `solve` in the history answers correctly. -/
def Spec.Answering (ops : List (SketchOp α)) : Prop := ∀ ext, SketchOp.solve ext ∈ ops → ∀ c, Respects c (ext c)

/-- Some call of `solve` in the history completed with a result satisfying `P`. -/
def Spec.Completed (a : SketchArgs) (sc : SpecialCodes α) (hull : List ℚ → Option ℚ) (pv : ℕ → ℕ → ℕ → ℕ → ℝ) (ops : List (SketchOp α))
    (P : StreamFit α → Prop) : Prop :=
  ∃ pre ext post f, ops = pre ++ .solve ext :: post ∧ ((SketchObj.run a sc hull pv pre).solve a sc hull pv ext).1 = .ok f ∧ P f

theorem Spec.Answering.left {xs ys : List (SketchOp α)} (h : Answering (xs ++ ys)) : Answering xs :=
  fun ext he => h ext (List.mem_append_left _ he)

theorem completed_snoc {ops : List (SketchOp α)} {o : SketchOp α} {P : StreamFit α → Prop} :
    Completed a sc hull pv (ops ++ [o]) P ↔ Completed a sc hull pv ops P ∨
      ∃ ext f, o = .solve ext ∧ ((SketchObj.run a sc hull pv ops).solve a sc hull pv ext).1 = .ok f ∧ P f := by
  constructor
  · rintro ⟨pre, ext, post, f, h1, h2, h3⟩
    rcases List.eq_nil_or_concat post with rfl | ⟨post', x, rfl⟩
    · right
      obtain ⟨h4, h5⟩ := List.append_inj' h1 rfl
      simp only [List.cons.injEq, and_true] at h5
      exact ⟨ext, f, h5, h4 ▸ h2, h3⟩
    · left
      rw [List.concat_eq_append, ← List.cons_append, ← List.append_assoc] at h1
      obtain ⟨h4, -⟩ := List.append_inj' h1 rfl
      exact ⟨pre, ext, post', f, h4, h2, h3⟩
  · rintro (⟨pre, ext, post, f, h1, h2, h3⟩ | ⟨ext, f, h1, h2, h3⟩)
    · exact ⟨pre, ext, post ++ [o], f, by rw [h1]; simp, h2, h3⟩
    · exact ⟨ops, ext, [], f, by rw [h1], h2, h3⟩

/-- The two outcomes of `solve` with a correct solver. -/
theorem solve_cases (heps : 0 < a.eps.value) (hm : 1 < a.base.maxPrebins) (hsc : ¬ IsSpecialValue sc none) (ops : List (SketchOp α))
    {ext : ExtSolver} (hr : ∀ c, Respects c (ext c)) (o o' : SketchObj α) (ho : SketchObj.run a sc hull pv ops = o)
    (ho' : (o.solve a sc hull pv ext).2 = o') :
    (∃ e, (o.solve a sc hull pv ext).1 = .error e ∧ o'.result = o.result ∧ o'.stats = o.stats ∧ o'.nSolve = o.nSolve ∧ o'.optimizer = o.optimizer) ∨
    (∃ f, (o.solve a sc hull pv ext).1 = .ok f ∧ o'.result = some f ∧
      o'.stats = o.stats ++ [⟨o.nSolve + 1, addCalls ops, labelled (received ops), f.table⟩] ∧ o'.nSolve = o.nSolve + 1 ∧
      o'.optimizer = (o.optimizer || decide (1 < f.nPrebins))) := by
  have hadd : o'.data.nAdd = addCalls ops ∧ o'.data.total = labelled (received ops) := by
    have h1 : SketchObj.run a sc hull pv (ops ++ [.solve ext]) = o' := by rw [sketchRun_snoc, ho, ← ho']; rfl
    obtain ⟨sops, -, -, h2⟩ := run_data (sc := sc) (hull := hull) (pv := pv) heps (ops ++ [.solve ext])
    have h3 := run_total (hull := hull) (pv := pv) heps hsc (ops ++ [.solve ext])
    rw [h1, addCalls_append] at h2
    rw [h1, received_append] at h3
    simp only [addCalls, received, List.append_nil, Nat.add_zero] at h2 h3
    exact ⟨h2, h3⟩
  have hso := C113_solvable (ops := ops) (pv := pv) (hull := hull) (ext := ext) heps hm hsc (hr _)
  rw [ho] at hso
  cases hres : (o.data.solve (a.stream sc) (ext (o.cfg a hull pv))).1 with
  | error e =>
    left
    unfold SketchObj.solve at ho' ⊢
    simp only at ho' ⊢
    rw [hres] at ho' ⊢
    simp only at ho' ⊢
    refine ⟨e, rfl, ?_⟩
    rw [← ho']
    split_ifs <;> exact ⟨rfl, rfl, rfl, rfl⟩
  | ok f =>
    right
    have hboth : BothClasses sc (received ops) := by
      obtain ⟨sops, e1, e2, -⟩ := run_data (sc := sc) (hull := hull) (pv := pv) heps ops
      rw [ho] at e2
      have := (C70_solvable (cfg := a.stream sc) (ops := sops) (solver := ext (o.cfg a hull pv)) heps
        (by show 2 ≤ a.base.maxPrebins.toNat; omega)).1 ⟨f, by rw [← e2]; exact hres⟩
      rw [e1] at this
      intro ev
      cases ev
      · exact this.2
      · exact this.1
    have hmix : (rowsOf f.table.nonevent f.table.event).any Spec.Row.mixed = true := by
      refine mixed_row (a := a) (hull := hull) (pv := pv) (ext := ext) heps hsc (hr _) ?_ hboth
      rw [ho]; exact hres
    have hn0 : o.data.nAdd ≠ 0 := by
      intro h0
      unfold Stream.solve at hres
      rw [if_pos h0] at hres
      cases hres
    unfold SketchObj.solve at ho' ⊢
    simp only at ho' ⊢
    rw [hres] at ho' ⊢
    simp only at ho' ⊢
    rw [if_neg hn0, if_pos hmix] at ho' ⊢
    simp only at ho'
    rw [← ho'] at hadd
    simp only at hadd
    refine ⟨f, rfl, ?_⟩
    rw [← ho']
    simp only
    rw [hadd.1, hadd.2]
    simp

theorem addStep (o : SketchObj α) (recs : List (Rec α)) :
    (o.add a sc recs).2.result = o.result ∧ (o.add a sc recs).2.stats = o.stats ∧ (o.add a sc recs).2.nSolve = o.nSolve ∧
    (o.add a sc recs).2.optimizer = o.optimizer := by
  unfold SketchObj.add
  split_ifs <;> exact ⟨rfl, rfl, rfl, rfl⟩

/-- C113: a completed `solve` appends one entry to the statistics drawn by `plot_progress`: its number, the number of calls of `add`, the number of
records with a target received so far, and the divergence of the table just computed; the table is the new one.  A call that raises changes neither. -/
theorem C113_solve_stats (heps : 0 < a.eps.value) (hm : 1 < a.base.maxPrebins) (hsc : ¬ IsSpecialValue sc none) (ops : List (SketchOp α))
    {ext : ExtSolver} (hr : ∀ c, Respects c (ext c)) {o o' : SketchObj α} (ho : SketchObj.run a sc hull pv ops = o)
    (ho' : SketchObj.run a sc hull pv (ops ++ [.solve ext]) = o') :
    (∀ f, (o.solve a sc hull pv ext).1 = .ok f → o'.table = .ok f.table ∧
      o'.stats = o.stats ++ [⟨o.nSolve + 1, addCalls ops, labelled (received ops), f.table⟩]) ∧
    (∀ e, (o.solve a sc hull pv ext).1 = .error e → o'.table = o.table ∧ o'.stats = o.stats ∧ o'.information = o.information) := by
  rw [sketchRun_snoc, ho] at ho'
  rcases solve_cases heps hm hsc ops hr o o' ho ho' with ⟨e, h1, h2, h3, h4, h5⟩ | ⟨f, h1, h2, h3, h4, h5⟩
  · refine ⟨fun f hf => (by rw [h1] at hf; cases hf), fun e' _ => ⟨?_, h3, ?_⟩⟩
    · unfold SketchObj.table; rw [h2]
    · unfold SketchObj.information; rw [h2, h5]
  · refine ⟨fun g hg => ?_, fun e he => (by rw [h1] at he; cases he)⟩
    rw [h1, Except.ok.injEq] at hg
    subst hg
    exact ⟨by unfold SketchObj.table; rw [h2], h3⟩

/-- C113: the data of `plot_progress` after any history: the entries are numbered 1, 2, …; the numbers of calls of `add` and of records never decrease
and never exceed those of the object; the table of the object is that of the last entry; without an entry the object is not solved. -/
theorem C113_progress (heps : 0 < a.eps.value) (hm : 1 < a.base.maxPrebins) (hsc : ¬ IsSpecialValue sc none) (ops : List (SketchOp α))
    (hall : Answering ops) {o : SketchObj α} (ho : SketchObj.run a sc hull pv ops = o) :
    (o.stats.map fun s => s.key) = (List.range o.stats.length).map (fun (i : ℕ) => i + 1) ∧
    (o.stats.Pairwise fun s t => s.nAdd ≤ t.nAdd ∧ s.nRecords ≤ t.nRecords) ∧
    (∀ s ∈ o.stats, s.nAdd ≤ addCalls ops ∧ s.nRecords ≤ labelled (received ops)) ∧
    (∀ s, o.stats.getLast? = some s → o.table = .ok s.table ∧ o.progress = .ok o.stats) ∧
    (o.stats = [] → o.table = .error "NotFittedError" ∧ o.progress = .error "NotFittedError") := by
  have key : (o.stats.map fun s => s.key) = (List.range o.stats.length).map (fun (i : ℕ) => i + 1) ∧ o.stats.length = o.nSolve ∧
      (o.stats.Pairwise fun s t => s.nAdd ≤ t.nAdd ∧ s.nRecords ≤ t.nRecords) ∧
      (∀ s ∈ o.stats, s.nAdd ≤ addCalls ops ∧ s.nRecords ≤ labelled (received ops)) ∧
      (o.stats.getLast?.map fun s => s.table) = o.result.map fun f => f.table := by
    subst ho
    induction ops using List.reverseRecOn with
    | nil => exact ⟨rfl, rfl, .nil, by simp [SketchObj.run, SketchObj.new], rfl⟩
    | append_singleton ops x ih =>
      obtain ⟨i1, i2, i3, i4, i5⟩ := ih hall.left
      have hlab : ∀ ys : List (Rec α), labelled (received ops) ≤ labelled (received ops ++ ys) := by
        intro ys
        unfold labelled classCount
        rw [List.countP_append, List.countP_append]
        omega
      have hmono : ∀ s ∈ (SketchObj.run a sc hull pv ops).stats,
          s.nAdd ≤ addCalls (ops ++ [x]) ∧ s.nRecords ≤ labelled (received (ops ++ [x])) := by
        intro s hs
        rw [addCalls_append, received_append]
        exact ⟨le_trans (i4 s hs).1 (Nat.le_add_right _ _), le_trans (i4 s hs).2 (hlab _)⟩
      rw [sketchRun_snoc]
      cases x with
      | add recs =>
        obtain ⟨a1, a2, a3, a4⟩ := addStep (a := a) (sc := sc) (SketchObj.run a sc hull pv ops) recs
        simp only [SketchObj.step]
        rw [a1, a2, a3]
        exact ⟨i1, i2, i3, hmono, i5⟩
      | solve ext =>
        simp only [SketchObj.step]
        rcases solve_cases heps hm hsc ops (hall ext (by simp)) _ _ rfl rfl with ⟨e, h1, h2, h3, h4, h5⟩ | ⟨f, h1, h2, h3, h4, h5⟩
        · rw [h2, h3, h4]
          exact ⟨i1, i2, i3, hmono, i5⟩
        · rw [h2, h3, h4]
          refine ⟨?_, by simp [i2], ?_, ?_, by simp⟩
          · rw [List.map_append, i1, List.length_append, List.length_singleton, List.range_succ, List.map_append, i2]
            rfl
          · rw [List.pairwise_append]
            refine ⟨i3, List.pairwise_singleton _ _, fun s hs t ht => ?_⟩
            rw [List.mem_singleton] at ht
            subst ht
            exact i4 s hs
          · intro s hs
            rcases List.mem_append.1 hs with hs | hs
            · exact hmono s hs
            · rw [List.mem_singleton] at hs
              subst hs
              rw [addCalls_append, received_append]
              exact ⟨Nat.le_add_right _ _, hlab _⟩
  obtain ⟨k1, k2, k3, k4, k5⟩ := key
  refine ⟨k1, k3, k4, fun s hs => ?_, fun h0 => ?_⟩
  · rw [hs, Option.map_some] at k5
    cases hres : o.result with
    | none => rw [hres] at k5; cases k5
    | some f =>
      rw [hres, Option.map_some, Option.some.injEq] at k5
      refine ⟨by unfold SketchObj.table; rw [hres, k5], ?_⟩
      unfold SketchObj.progress
      have : o.stats.isEmpty = false := by
        cases hst : o.stats with
        | nil => rw [hst] at hs; cases hs
        | cons => rfl
      rw [hres, this]
      rfl
  · rw [h0] at k5
    cases hres : o.result with
    | some f => rw [hres] at k5; cases k5
    | none =>
      refine ⟨by unfold SketchObj.table; rw [hres], by unfold SketchObj.progress; rw [hres]; rfl⟩

/-- C113: when `information()` works: after a call of `solve` that completed with more than one pre-bin.  Finding: if `solve` completed, but always
with a single pre-bin, it raises `AttributeError` (the attribute is missing); before any completed `solve` it raises `NotFittedError`. -/
theorem C113_information (heps : 0 < a.eps.value) (hm : 1 < a.base.maxPrebins) (hsc : ¬ IsSpecialValue sc none) (ops : List (SketchOp α))
    (hall : Answering ops) :
    ((SketchObj.run a sc hull pv ops).information = .ok () ↔ Completed a sc hull pv ops fun f => 1 < f.nPrebins) ∧
    ((SketchObj.run a sc hull pv ops).information = .error "NotFittedError" ↔ ¬ Completed a sc hull pv ops fun _ => True) ∧
    ((SketchObj.run a sc hull pv ops).information = .error "AttributeError" ↔
      Completed a sc hull pv ops (fun _ => True) ∧ ¬ Completed a sc hull pv ops fun f => 1 < f.nPrebins) := by
  have key : ((SketchObj.run a sc hull pv ops).result.isSome = true ↔ Completed a sc hull pv ops fun _ => True) ∧
      ((SketchObj.run a sc hull pv ops).optimizer = true ↔ Completed a sc hull pv ops fun f => 1 < f.nPrebins) := by
    induction ops using List.reverseRecOn with
    | nil =>
      have h0 : ∀ P, ¬ Completed a sc hull pv ([] : List (SketchOp α)) P := by
        rintro P ⟨pre, ext, post, f, h1, -⟩
        simp at h1
      exact ⟨⟨fun h => (by cases h), fun h => absurd h (h0 _)⟩, ⟨fun h => (by cases h), fun h => absurd h (h0 _)⟩⟩
    | append_singleton ops x ih =>
      obtain ⟨i1, i2⟩ := ih hall.left
      rw [completed_snoc, completed_snoc, sketchRun_snoc, ← i1, ← i2]
      cases x with
      | add recs =>
        obtain ⟨a1, a2, a3, a4⟩ := addStep (a := a) (sc := sc) (SketchObj.run a sc hull pv ops) recs
        simp only [SketchObj.step]
        rw [a1, a4]
        simp
      | solve ext =>
        simp only [SketchObj.step]
        rcases solve_cases heps hm hsc ops (hall ext (by simp)) _ _ rfl rfl with ⟨e, h1, h2, h3, h4, h5⟩ | ⟨f, h1, h2, h3, h4, h5⟩
        · rw [h2, h5]
          constructor
          · refine ⟨Or.inl, ?_⟩
            rintro (h | ⟨ext', f, hx, hf, -⟩)
            · exact h
            · cases hx; rw [h1] at hf; cases hf
          · refine ⟨Or.inl, ?_⟩
            rintro (h | ⟨ext', f, hx, hf, -⟩)
            · exact h
            · cases hx; rw [h1] at hf; cases hf
        · rw [h2, h5]
          constructor
          · exact ⟨fun _ => Or.inr ⟨ext, f, rfl, h1, trivial⟩, fun _ => rfl⟩
          · rw [Bool.or_eq_true, decide_eq_true_eq]
            constructor
            · rintro (h | h)
              · exact Or.inl h
              · exact Or.inr ⟨ext, f, rfl, h1, h⟩
            · rintro (h | ⟨ext', f', hx, hf, hp⟩)
              · exact Or.inl h
              · cases hx
                rw [h1, Except.ok.injEq] at hf
                subst hf
                exact Or.inr hp
  obtain ⟨k1, k2⟩ := key
  have k3 : (Completed a sc hull pv ops fun f => 1 < f.nPrebins) → Completed a sc hull pv ops fun _ => True := by
    rintro ⟨pre, ext, post, f, h1, h2, -⟩
    exact ⟨pre, ext, post, f, h1, h2, trivial⟩
  unfold SketchObj.information
  cases hres : (SketchObj.run a sc hull pv ops).result with
  | none =>
    rw [hres] at k1
    have hn : ¬ Completed a sc hull pv ops fun _ => True := fun h => by have := k1.2 h; cases this
    simp [hn, mt k3 hn]
  | some f =>
    rw [hres] at k1
    have hy : Completed a sc hull pv ops fun _ => True := k1.1 rfl
    cases hop : (SketchObj.run a sc hull pv ops).optimizer with
    | true =>
      have := k2.1 hop
      simp [hy, this]
    | false =>
      have hno : ¬ Completed a sc hull pv ops fun f => 1 < f.nPrebins := fun h => by have := k2.2 h; rw [hop] at this; cases this
      simp [hy, hno]

/-- Finding: `split_digits` is checked by the constructor and otherwise ignored. -/
theorem C113_split_digits_ignored (a : SketchArgs) (d : Option ℤ) (sc : SpecialCodes α) (hull : List ℚ → Option ℚ)
    (pv : ℕ → ℕ → ℕ → ℕ → ℝ) (ops : List (SketchOp α)) :
    SketchObj.run { a with base := { a.base with splitDigits := d } } sc hull pv ops = SketchObj.run a sc hull pv ops := rfl

end
end OptBinning
