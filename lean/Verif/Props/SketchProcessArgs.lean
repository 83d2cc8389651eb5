import Verif.Spec.SketchProcessArgs
import Verif.Props.SketchArgs
import Verif.Props.ProcessSketch2

/-!
# C119: the arguments of `BinningProcessSketch` and the table of every variable
-/
set_option linter.unusedSectionVars false
namespace OptBinning
open Spec

/-- C119: `BinningProcessSketch` accepts exactly the documented ranges and raises `ValueError` for everything else. -/
theorem C119_checks (p : ParamsPS) :
    (checkParametersPS p = .ok () ↔ ValidParamsPS p) ∧
    (checkParametersPS p = .ok () ∨ checkParametersPS p = .error "ValueError") := by
  have hopt : ∀ (o : Option XQ) (b : ℚ), ¬ (o.any fun v => !(v.above 0 && v.atMost b)) = true ↔
      ∀ v, o = some v → NumIn v fun q => 0 < q ∧ q ≤ b := by
    intro o b
    cases o with
    | none => simp
    | some v => simp only [Option.any_some, Bool.not_eq_true', Bool.not_eq_false, open_closed, Option.some.injEq,
        forall_eq']
  have hd : ¬ (p.splitDigits.any fun d => !(decide (0 ≤ d) && decide (d ≤ 8))) = true ↔
      ∀ d, p.splitDigits = some d → 0 ≤ d ∧ d ≤ 8 := by
    cases p.splitDigits with
    | none => simp
    | some d => simp
  have hord : ¬ (p.minBinSize.any fun v => p.maxBinSize.any fun w => v.greater w) = true ↔
      ∀ x y, p.minBinSize = some (.num x) → p.maxBinSize = some (.num y) → x ≤ y := by
    cases p.minBinSize with
    | none => simp
    | some v =>
      cases p.maxBinSize with
      | none => simp
      | some w => cases v <;> cases w <;> simp [XQ.greater]
  have ite_ok : ∀ (b : Prop) [Decidable b] (x : Except String Unit),
      (if b then Except.error "ValueError" else x) = .ok () ↔ ¬ b ∧ x = .ok () := by
    intro b _ x
    by_cases hb : b <;> simp [hb]
  constructor
  · unfold checkParametersPS
    simp only [ite_ok, hopt, hord, hd, Bool.not_eq_true, badCount_false, badOrder_false, not_le, and_true]
    exact ⟨fun ⟨a, b, c, d, e, f, g, h, i⟩ => ⟨a, b, c, d, e, f, g, h, i⟩, fun ⟨a, b, c, d, e, f, g, h, i⟩ => ⟨a, b, c, d, e, f, g, h, i⟩⟩
  · unfold checkParametersPS
    split_ifs <;> simp

/-- The arguments of the process, as arguments of the object of a variable, are accepted by its constructor. -/
theorem variable_accepted {P : ParamsPS} (h : ValidParamsPS P) : checkSketch P.variable = .ok () := by
  obtain ⟨h1, h2, h3, h4, h5, h6, h7, h8, h9⟩ := h
  refine (C113_checks _).1 ⟨⟨_, rfl, by norm_num⟩, (by norm_num : (0 : ℤ) < 25), h1, h2, h3, h4, h5, ?_, ?_, ?_, ?_, ?_, ?_, ?_, ?_, ⟨_, rfl, by norm_num⟩, h8,
    ⟨_, rfl, by norm_num⟩, ?_, h9, ⟨_, rfl, by norm_num⟩⟩ <;>
  simp [ParamsPS.variable, PositiveIfGiven, OrderedIfGiven]

theorem setSketch_field {β : Type*} (field : SketchArgs → β) (sel : SketchOpt → Option β) (k : String)
    (hk : ∀ o v, sel o = some v → skOptName o = k)
    (hf : ∀ p o q, SketchArgs.assign p o = .ok q → field q = (sel o).getD (field p)) :
    ∀ (l : List SketchOpt) (p q : SketchArgs), (l.map skOptName).Nodup → setSketch l p = .ok q → field q = skChosen l sel (field p) := by
  intro l
  induction l with
  | nil =>
    intro p q _ h
    cases h
    rfl
  | cons o os ih =>
    intro p q hnd h
    unfold setSketch at h
    cases h1 : SketchArgs.assign p o with
    | error e => rw [h1] at h; cases h
    | ok p1 =>
      rw [h1] at h
      rw [List.map_cons, List.nodup_cons] at hnd
      have := ih p1 q hnd.2 h
      rw [this, hf p o p1 h1]
      unfold skChosen
      rw [List.findSome?_cons]
      cases hs : sel o with
      | none => rfl
      | some v =>
        have hn : os.findSome? sel = none := by
          rw [List.findSome?_eq_none_iff]
          intro o' ho'
          cases hs' : sel o' with
          | none => rfl
          | some v' =>
            exact absurd (List.mem_map.2 ⟨o', ho', by rw [hk o' v' hs', hk o v hs]⟩) hnd.1
        rw [hn]
        rfl

theorem setSketch_ok_iff :
    ∀ (l : List SketchOpt) (p : SketchArgs), ((∀ o ∈ l, SketchOption o) → ∃ q, setSketch l p = .ok q) ∧
      ((∃ o ∈ l, ¬ SketchOption o) → setSketch l p = .error "ValueError") := by
  have hg : ∀ p o, SketchOption o → ∃ q, SketchArgs.assign p o = .ok q := by
    intro p o h; cases o <;> first | exact ⟨_, rfl⟩ | exact absurd h (by simp [SketchOption])
  have hb : ∀ p o, ¬ SketchOption o → SketchArgs.assign p o = .error "ValueError" := by
    intro p o h; cases o <;> first | rfl | exact absurd trivial h
  intro l
  induction l with
  | nil => intro p; exact ⟨fun _ => ⟨p, rfl⟩, fun ⟨o, ho, _⟩ => by simp at ho⟩
  | cons o os ih =>
    intro p
    unfold setSketch
    constructor
    · intro h
      obtain ⟨q, hq⟩ := hg p o (h o (by simp))
      rw [hq]
      exact (ih q).1 fun o' ho' => h o' (by simp [ho'])
    · rintro ⟨o', ho', hbad⟩
      by_cases hgo : SketchOption o
      · obtain ⟨q, hq⟩ := hg p o hgo
        rw [hq]
        refine (ih q).2 ⟨o', ?_, hbad⟩
        rcases List.mem_cons.1 ho' with rfl | h
        · exact absurd hgo hbad
        · exact h
      · rw [hb p o hgo]

/-- C119: `set_params` of a variable: the options are those of its dictionary, then of the process, then the defaults, whatever their
values are; an option which is not one of `OptimalBinningSketch` raises `ValueError`. -/
theorem C119_options (P : ParamsPS) (l : List SketchOpt) (hl : (l.map skOptName).Nodup) :
    ((∀ o ∈ l, SketchOption o) → setSketch l P.variable = .ok (optionsSketch P l)) ∧
    ((∃ o ∈ l, ¬ SketchOption o) → setSketch l P.variable = .error "ValueError") := by
  have key := setSketch_ok_iff l P.variable
  refine ⟨fun h => ?_, key.2⟩
  obtain ⟨q, hq⟩ := key.1 h
  rw [hq]
  congr 1
  have F := fun {β : Type} (field : SketchArgs → β) (sel : SketchOpt → Option β) (k : String) hk hf =>
    setSketch_field field sel k hk hf l P.variable q hl hq
  have M : q.base.minPrebinSize = P.variable.base.minPrebinSize := by
    have : ∀ (l : List SketchOpt) (p q : SketchArgs), setSketch l p = .ok q → q.base.minPrebinSize = p.base.minPrebinSize := by
      intro l
      induction l with
      | nil => intro p q h; cases h; rfl
      | cons o os ih =>
        intro p q h
        unfold setSketch at h
        cases h1 : SketchArgs.assign p o with
        | error e => rw [h1] at h; cases h
        | ok p1 =>
          rw [h1] at h
          rw [ih p1 q h]
          cases o <;> cases h1 <;> rfl
    exact this l _ q hq
  obtain ⟨⟨a1, a2, a3, a4, a5, a6, a7, a8, a9, a10, a11, a12, a13, a14, a15, a16, a17, a18⟩, b1, b2, b3⟩ := q
  unfold optionsSketch
  rw [SketchArgs.mk.injEq, Params.mk.injEq]
  refine ⟨⟨F (fun a => a.base.divergence) _ "divergence" ?_ ?_, F (fun a => a.base.maxPrebins) _ "max_n_prebins" ?_ ?_,
    M, F (fun a => a.base.minBins) _ "min_n_bins" ?_ ?_, F (fun a => a.base.maxBins) _ "max_n_bins" ?_ ?_,
    F (fun a => a.base.minBinSize) _ "min_bin_size" ?_ ?_, F (fun a => a.base.maxBinSize) _ "max_bin_size" ?_ ?_,
    F (fun a => a.base.minNonevent) _ "min_bin_n_nonevent" ?_ ?_, F (fun a => a.base.maxNonevent) _ "max_bin_n_nonevent" ?_ ?_,
    F (fun a => a.base.minEvent) _ "min_bin_n_event" ?_ ?_, F (fun a => a.base.maxEvent) _ "max_bin_n_event" ?_ ?_,
    F (fun a => a.base.trend) _ "monotonic_trend" ?_ ?_, F (fun a => a.base.minRateDiff) _ "min_event_rate_diff" ?_ ?_,
    F (fun a => a.base.maxPvalue) _ "max_pvalue" ?_ ?_, F (fun a => a.base.policy) _ "max_pvalue_policy" ?_ ?_, F (fun a => a.base.gamma) _ "gamma" ?_ ?_,
    F (fun a => a.base.splitDigits) _ "split_digits" ?_ ?_, F (fun a => a.base.timeLimit) _ "time_limit" ?_ ?_⟩,
    F SketchArgs.eps _ "eps" ?_ ?_, F SketchArgs.K _ "K" ?_ ?_, F SketchArgs.catCutoff _ "cat_cutoff" ?_ ?_⟩ <;>
  first
  | (intro o v h; cases o <;> first | rfl | cases h; done)
  | (intro p o q h; cases o <;> cases h <;> rfl)

section
variable {α V μ : Type*} [LinearOrder α] [Field V] [LinearOrder V] {P : ParamsPS} {fp : Option (PDict (List SketchOpt))}
  {E : SketchEnv α V μ} {cfg : SkProcCfg V μ} {ops : List (SkProcOp (SketchVar α) (Option α) (Option Bool) V)} {n : String}

/-- The state of the object of a variable, told from the calls it received. -/
theorem sketchVar_fold (hd : DistinctColumns ops) {o : SketchVar α} {prev : List (SketchOp α)}
    (ho : o.obj = SketchObj.run o.args E.special E.hull E.pv prev) (hq : VarQuiet (sketchVars P fp E) o (callsFor n ops)) :
    ∃ o', (callsFor n ops).foldl (varStep (sketchVars P fp E)) o = o' ∧ o'.name = o.name ∧ o'.args = o.args ∧
      o'.calls = o.calls + solveCalls ops ∧
      o'.obj = SketchObj.run o.args E.special E.hull E.pv (prev ++ sketchOps (E.ext o.name) n o.calls ops) := by
  induction ops generalizing o prev with
  | nil => exact ⟨o, rfl, rfl, rfl, by simp [solveCalls], by rw [ho]; simp [sketchOps]⟩
  | cons c ops ih =>
    have hd' : DistinctColumns ops := fun c hc => hd c (List.mem_cons_of_mem _ hc)
    cases c with
    | merge q =>
      cases hg : q.objs.get n with
      | none =>
        simp only [callsFor, hg, List.nil_append] at hq ⊢
        obtain ⟨o', h1, h2, h3, h4, h5⟩ := ih hd' ho hq
        exact ⟨o', h1, h2, h3, h4, h5⟩
      | some b =>
        simp only [callsFor, hg, List.cons_append, List.nil_append] at hq
        exact absurd hq.1 (by simp [varCall, sketchVars])
    | add c =>
      cases hg : PDict.get c.cols n with
      | none =>
        simp only [callsFor, hg, List.nil_append] at hq ⊢
        obtain ⟨o', h1, h2, h3, h4, h5⟩ := ih hd' ho hq
        refine ⟨o', h1, h2, h3, h4, ?_⟩
        rw [h5]
        simp only [sketchOps, hg, List.nil_append]
      | some x =>
        simp only [callsFor, hg, List.cons_append, List.nil_append] at hq ⊢
        obtain ⟨hq1, hq2⟩ := hq
        have hstep : ∃ o1, (sketchVars P fp E).add o x c.y = (o1, none) ∧ o1.name = o.name ∧ o1.args = o.args ∧ o1.calls = o.calls ∧
            o1.obj = (o.obj.add o.args E.special (recordsOf x c.y)).2 := by
          change (SketchVar.add E.special o x c.y).2 = none at hq1
          show ∃ o1, SketchVar.add E.special o x c.y = (o1, none) ∧ _
          unfold SketchVar.add at hq1 ⊢
          by_cases hb : o.obj.data.nAdd = 0 ∧ o.args.badSketch = true
          · rw [if_pos hb] at hq1; cases hq1
          · rw [if_neg hb] at hq1 ⊢
            by_cases hl : x.length = c.y.length
            · rw [if_pos hl] at hq1 ⊢
              rcases ha : o.obj.add o.args E.special (recordsOf x c.y) with ⟨e | u, obj⟩
              · rw [ha] at hq1; cases hq1
              · exact ⟨_, rfl, rfl, rfl, rfl, rfl⟩
            · rw [if_neg hl] at hq1; cases hq1
        obtain ⟨o1, e1, e2, e3, e4, e5⟩ := hstep
        have hvs : varStep (sketchVars P fp E) o (.add x c.y) = o1 := by unfold varStep varCall; simp only; rw [e1]
        rw [List.foldl_cons, hvs]
        rw [hvs] at hq2
        have ho1 : o1.obj = SketchObj.run o1.args E.special E.hull E.pv (prev ++ [.add (recordsOf x c.y)]) := by
          rw [sketchRun_snoc, e3, ← ho, e5]; rfl
        obtain ⟨o', h1, h2, h3, h4, h5⟩ := ih hd' ho1 hq2
        refine ⟨o', h1, h2.trans e2, h3.trans e3, by rw [h4, e4]; rfl, ?_⟩
        rw [h5, e3, e2, e4]
        simp only [sketchOps, hg, List.append_assoc]
    | solve =>
      simp only [callsFor] at hq ⊢
      obtain ⟨hq1, hq2⟩ := hq
      have hstep : ∃ o1, (sketchVars P fp E).solve o = (o1, none) ∧ o1.name = o.name ∧ o1.args = o.args ∧ o1.calls = o.calls + 1 ∧
          o1.obj = (o.obj.solve o.args E.special E.hull E.pv (E.ext o.name o.calls)).2 := by
        change (SketchVar.solve E.special E.hull E.pv (E.ext o.name) o).2 = none at hq1
        show ∃ o1, SketchVar.solve E.special E.hull E.pv (E.ext o.name) o = (o1, none) ∧ _
        unfold SketchVar.solve at hq1 ⊢
        rcases ha : o.obj.solve o.args E.special E.hull E.pv (E.ext o.name o.calls) with ⟨e | u, obj⟩
        · rw [ha] at hq1; cases hq1
        · exact ⟨_, rfl, rfl, rfl, rfl, rfl⟩
      obtain ⟨o1, e1, e2, e3, e4, e5⟩ := hstep
      have hvs : varStep (sketchVars P fp E) o .solve = o1 := by unfold varStep varCall; simp only; rw [e1]
      rw [List.foldl_cons, hvs]
      rw [hvs] at hq2
      have ho1 : o1.obj = SketchObj.run o1.args E.special E.hull E.pv (prev ++ [.solve (E.ext o.name o.calls)]) := by
        rw [sketchRun_snoc, e3, ← ho, e5]; rfl
      obtain ⟨o', h1, h2, h3, h4, h5⟩ := ih hd' ho1 hq2
      refine ⟨o', h1, h2.trans e2, h3.trans e3, by rw [h4, e4]; simp only [solveCalls]; omega, ?_⟩
      rw [h5, e3, e2, e4]
      simp only [sketchOps, List.append_assoc, List.cons_append, List.nil_append]

/-- The object of a variable is created exactly if all its options are known. -/
theorem sketchVars_new (hP : ValidParamsPS P) (hl : ((sketchParamsOf fp n).map skOptName).Nodup) :
    ((∀ o ∈ sketchParamsOf fp n, SketchOption o) → (sketchVars P fp E).new n =
      .ok { name := n, args := optionsSketch P (sketchParamsOf fp n), obj := .new (optionsSketch P (sketchParamsOf fp n)) E.special }) ∧
    ((∃ o ∈ sketchParamsOf fp n, ¬ SketchOption o) → (sketchVars P fp E).new n = .error "ValueError") := by
  obtain ⟨h1, h2⟩ := C119_options P (sketchParamsOf fp n) hl
  constructor <;> intro h
  · simp only [sketchVars, variable_accepted hP, h1 h]
  · simp only [sketchVars, variable_accepted hP, h2 h]

/-- C119: in a history of `add` and `solve` without exceptions the object of a variable has the options of its dictionary, of the process
and the defaults (in this order), and is in the state a single `OptimalBinningSketch` with these options has after the same columns and the
same calls of `solve`. -/
theorem C119_object (hP : ValidParamsPS P) (hn : cfg.names.Nodup) (hmem : n ∈ cfg.names) (hl : ((sketchParamsOf fp n).map skOptName).Nodup)
    (hne : ops ≠ []) (hq : Quiet (sketchVars P fp E) cfg {} ops) (hd : DistinctColumns ops) :
    (∀ o ∈ sketchParamsOf fp n, SketchOption o) ∧
    ∃ o, (SkProc.run (sketchVars P fp E) cfg ops).objs.get n = some o ∧ o.name = n ∧ o.args = optionsSketch P (sketchParamsOf fp n) ∧
      o.calls = solveCalls ops ∧
      o.obj = SketchObj.run (optionsSketch P (sketchParamsOf fp n)) E.special E.hull E.pv (sketchOps (E.ext n) n 0 ops) := by
  obtain ⟨o0, h1, h2, h3⟩ := C76_routing hn hmem hne hq hd
  obtain ⟨k1, k2⟩ := sketchVars_new (E := E) (n := n) hP hl
  have hk : ∀ o ∈ sketchParamsOf fp n, SketchOption o := by
    by_contra hc
    push Not at hc
    rw [k2 hc] at h1
    cases h1
  rw [k1 hk, Except.ok.injEq] at h1
  subst h1
  obtain ⟨o', g1, g2, g3, g4, g5⟩ := sketchVar_fold (prev := []) hd (by rfl) h3
  refine ⟨hk, o', by rw [h2, g1], g2, g3, by rw [g4]; simp, ?_⟩
  rw [g5]
  rfl

theorem sketchQuiet_append {K : VarClass (SketchVar α) (Option α) (Option Bool) V μ} (p : SkProc (SketchVar α) V)
    (a b : List (SkProcOp (SketchVar α) (Option α) (Option Bool) V)) :
    Quiet K cfg p (a ++ b) ↔ Quiet K cfg p a ∧ Quiet K cfg (a.foldl (fun p o => (p.step K cfg o).1) p) b := by
  induction a generalizing p with
  | nil => simp [Quiet]
  | cons o a ih => simp only [List.cons_append, Quiet, ih, List.foldl_cons, and_assoc]

theorem sketchOps_snoc (ext : ℕ → ExtSolver) (k : ℕ) : sketchOps ext n k (ops ++ [.solve]) = sketchOps ext n k ops ++ [.solve (ext (k + solveCalls ops))] := by
  induction ops generalizing k with
  | nil => simp [sketchOps, solveCalls]
  | cons c ops ih =>
    cases c with
    | add c => simp only [List.cons_append, sketchOps, ih, solveCalls, List.append_assoc]
    | merge q => simp only [List.cons_append, sketchOps, ih, solveCalls]
    | solve => simp only [List.cons_append, sketchOps, ih, solveCalls]; rw [Nat.add_right_comm, Nat.add_assoc]

theorem sketchOps_received (ext : ℕ → ExtSolver) (k : ℕ) : received (sketchOps ext n k ops) = recordsFor n ops := by
  induction ops generalizing k with
  | nil => rfl
  | cons c ops ih =>
    cases c with
    | add c =>
      simp only [sketchOps, recordsFor]
      cases PDict.get c.cols n with
      | none => exact ih k
      | some x => simp only [List.cons_append, List.nil_append, received, ih k]
    | merge q => exact ih k
    | solve => exact ih (k + 1)

theorem sketch_solve_result {a : SketchArgs} {sc : SpecialCodes α} {hull : List ℚ → Option ℚ} {pv : ℕ → ℕ → ℕ → ℕ → ℝ} {o : SketchObj α}
    {ext : ExtSolver} {f : StreamFit α} (h : (o.solve a sc hull pv ext).1 = .ok f) : (o.solve a sc hull pv ext).2.result = some f := by
  obtain ⟨-, h2, h3⟩ := solve_ok h
  unfold SketchObj.solve
  simp only
  rw [h2]
  simp only
  rw [if_pos h3]

/-- C119: after a history without exceptions ending with `solve`, the table of a variable is the one a single `OptimalBinningSketch` with
the options of this variable gives after the same columns and the same calls. -/
theorem C119_table (hP : ValidParamsPS P) (hn : cfg.names.Nodup) (hmem : n ∈ cfg.names) (hl : ((sketchParamsOf fp n).map skOptName).Nodup)
    (hq : Quiet (sketchVars P fp E) cfg {} (ops ++ [.solve])) (hd : DistinctColumns ops) :
    ∃ o f, (SkProc.run (sketchVars P fp E) cfg (ops ++ [.solve])).objs.get n = some o ∧ o.obj.table = .ok f.table ∧ o.obj.result = some f ∧
      ((SketchObj.run (optionsSketch P (sketchParamsOf fp n)) E.special E.hull E.pv (sketchOps (E.ext n) n 0 ops)).solve
        (optionsSketch P (sketchParamsOf fp n)) E.special E.hull E.pv (E.ext n (solveCalls ops))).1 = .ok f := by
  have hd' : DistinctColumns (ops ++ [SkProcOp.solve (Ω := SketchVar α) (χ := Option α) (υ := Option Bool) (V := V)]) := by
    intro c hc
    rcases List.mem_append.1 hc with hc | hc
    · exact hd c hc
    · simp at hc
  obtain ⟨-, o', h1, h2, h3, h4, h5⟩ := C119_object hP hn hmem hl (by simp) hq hd'
  have hq' := hq
  rw [sketchQuiet_append] at hq'
  have hne : ops ≠ [] := by
    rintro rfl
    have := hq'.2.1
    simp [SkProc.step, SkProc.solve] at this
  obtain ⟨-, o, g1, g2, g3, g4, g5⟩ := C119_object hP hn hmem hl hne hq'.1 hd
  rw [sketchOps_snoc, sketchRun_snoc, Nat.zero_add] at h5
  have h6 := hq'.2.1
  unfold SkProc.run at g1
  generalize ops.foldl (fun (p : SkProc (SketchVar α) V) o => (p.step (sketchVars P fp E) cfg o).1) {} = p at g1 h6
  obtain ⟨-, -, hall⟩ := (C77_solve_ok hn p).1 h6
  obtain ⟨a, a', m, k1, k2, -⟩ := hall n hmem
  rw [g1, Option.some.injEq] at k1
  subst k1
  change SketchVar.solve E.special E.hull E.pv (E.ext o.name) o = (a', none) at k2
  unfold SketchVar.solve at k2
  rw [g2, g3, g4, g5] at k2
  set a := optionsSketch P (sketchParamsOf fp n)
  set r := SketchObj.run a E.special E.hull E.pv (sketchOps (E.ext n) n 0 ops)
  cases hr : (r.solve a E.special E.hull E.pv (E.ext n (solveCalls ops))).1 with
  | error e =>
    rcases hs : r.solve a E.special E.hull E.pv (E.ext n (solveCalls ops)) with ⟨x, y⟩
    rw [hs] at hr k2
    simp only at hr
    subst hr
    simp at k2
  | ok f =>
    have hres : o'.obj.result = some f := by
      rw [h5]
      exact sketch_solve_result hr
    refine ⟨o', f, h1, ?_, hres, rfl⟩
    unfold SketchObj.table
    rw [hres]

/-! ## The table of a variable -/

/-- A process on which `solve` has just completed, after any history of calls without exceptions; `a` are the options of variable `n`, `f` its
fitted table, `N` the number of records with a target in its columns. -/
structure Spec.Processed (P : ParamsPS) (fp : Option (PDict (List SketchOpt))) (E : SketchEnv α V μ) (cfg : SkProcCfg V μ)
    (ops : List (SkProcOp (SketchVar α) (Option α) (Option Bool) V)) (n : String) (a : SketchArgs) (f : StreamFit α) (N : ℕ) : Prop where
  valid : checkParametersPS P = .ok ()
  names : cfg.names.Nodup
  known : n ∈ cfg.names
  dict : ((sketchParamsOf fp n).map skOptName).Nodup
  options : a = optionsSketch P (sketchParamsOf fp n)
  quiet : Quiet (sketchVars P fp E) cfg {} (ops ++ [.solve])
  columns : DistinctColumns ops
  eps : 0 < a.eps.value
  missing : ¬ IsSpecialValue E.special none
  fitted : ∃ o, (SkProc.run (sketchVars P fp E) cfg (ops ++ [.solve])).objs.get n = some o ∧ o.obj.result = some f
  records : labelled (recordsFor n ops) = N

variable {a : SketchArgs} {f : StreamFit α} {N : ℕ}

theorem Spec.Processed.solve (h : Processed P fp E cfg ops n a f N) :
    ((SketchObj.run a E.special E.hull E.pv (sketchOps (E.ext n) n 0 ops)).solve a E.special E.hull E.pv (E.ext n (solveCalls ops))).1 = .ok f := by
  obtain ⟨o, f', h1, -, h3, h4⟩ := C119_table ((C119_checks P).1.1 h.valid) h.names h.known h.dict h.quiet h.columns
  obtain ⟨o2, g1, g2⟩ := h.fitted
  rw [h1, Option.some.injEq] at g1
  subst g1
  rw [h3, Option.some.injEq] at g2
  subst g2
  rw [h.options]
  exact h4

/-- C119: what the limits chosen for a variable mean for its table in the process (`solve` reporting OPTIMAL or FEASIBLE, more than
one pre-bin): sizes are relative to the number `N` of records with a target in its columns. -/
theorem C119_limits (h : Processed P fp E cfg ops n a f N) (hr : ∀ k c, Respects c (E.ext n k c)) (hs : f.table.Solved) (h1 : 1 < f.nPrebins) :
    (∀ b, a.base.minBins = some b → b ≤ f.table.splits.length + 1) ∧
    (∀ b, a.base.maxBins = some b → (f.table.splits.length : ℤ) + 1 ≤ b) ∧
    ∀ k ≤ f.table.splits.length, ∀ ne e : ℕ, f.table.nonevent.getD k 0 = ne → f.table.event.getD k 0 = e →
      (∀ q, a.base.minBinSize = some (.num q) → q * (N : ℚ) ≤ ((ne + e : ℕ) : ℚ)) ∧
      (∀ q, a.base.maxBinSize = some (.num q) → ((ne + e : ℕ) : ℚ) < q * (N : ℚ) + 1) ∧
      (∀ b, a.base.minNonevent = some b → b ≤ ne) ∧ (∀ b, a.base.maxNonevent = some b → (ne : ℤ) ≤ b) ∧
      (∀ b, a.base.minEvent = some b → b ≤ e) ∧ (∀ b, a.base.maxEvent = some b → (e : ℤ) ≤ b) ∧ 0 < ne ∧ 0 < e :=
  C113_limits h.eps h.missing (hr _ _) h.solve hs h1 (by rw [sketchOps_received]; exact h.records)

/-- C119: the arguments of the process itself, for a variable without entry in `binning_fit_params`. -/
theorem C119_process_limits (h : Processed P fp E cfg ops n a f N) (hfp : sketchParamsOf fp n = []) (hr : ∀ k c, Respects c (E.ext n k c))
    (hs : f.table.Solved) (h1 : 1 < f.nPrebins) :
    (∀ b, P.minBins = some b → b ≤ f.table.splits.length + 1) ∧
    (∀ b, P.maxBins = some b → (f.table.splits.length : ℤ) + 1 ≤ b) ∧
    ∀ k ≤ f.table.splits.length, ∀ ne e : ℕ, f.table.nonevent.getD k 0 = ne → f.table.event.getD k 0 = e →
      (∀ q, P.minBinSize = some (.num q) → q * (N : ℚ) ≤ ((ne + e : ℕ) : ℚ)) ∧ 0 < ne ∧ 0 < e := by
  obtain ⟨g1, g2, g3⟩ := C119_limits h hr hs h1
  have ha := h.options
  rw [hfp] at ha
  subst ha
  refine ⟨g1, g2, fun k hk ne e hne he => ?_⟩
  obtain ⟨k1, -, -, -, -, -, k7⟩ := g3 k hk ne e hne he
  exact ⟨k1, k7⟩

/-- C119: `monotonic_trend` chosen for a variable, `solver="mip"`. -/
theorem C119_trend_mip {reg : ℝ} (h : Processed P fp E cfg ops n a f N) (hr : ∀ k c, RespectsMIP c reg (E.ext n k c)) :
    (a.base.trend = .ascending → ∀ k k', k < k' → k' ≤ f.table.splits.length → rateOfRow f.table.nonevent f.table.event k ≤ rateOfRow f.table.nonevent f.table.event k') ∧
    (a.base.trend = .descending → ∀ k k', k < k' → k' ≤ f.table.splits.length → rateOfRow f.table.nonevent f.table.event k' ≤ rateOfRow f.table.nonevent f.table.event k) ∧
    (a.base.trend = .autoAscDesc → (∀ k k', k < k' → k' ≤ f.table.splits.length → rateOfRow f.table.nonevent f.table.event k ≤ rateOfRow f.table.nonevent f.table.event k') ∨
      (∀ k k', k < k' → k' ≤ f.table.splits.length → rateOfRow f.table.nonevent f.table.event k' ≤ rateOfRow f.table.nonevent f.table.event k)) :=
  C113_trend_mip h.eps h.missing (hr _ _) h.solve

/-- C119: `monotonic_trend` chosen for a variable, `solver="cp"` (up to 1e-6). -/
theorem C119_trend_cp {reg : ℤ} (h : Processed P fp E cfg ops n a f N) (hr : ∀ k c, RespectsCP c reg (E.ext n k c)) :
    (a.base.trend = .ascending → ∀ k k', k < k' → k' ≤ f.table.splits.length → rateOfRow f.table.nonevent f.table.event k < rateOfRow f.table.nonevent f.table.event k' + 1 / 1000000) ∧
    (a.base.trend = .descending → ∀ k k', k < k' → k' ≤ f.table.splits.length → rateOfRow f.table.nonevent f.table.event k' < rateOfRow f.table.nonevent f.table.event k + 1 / 1000000) ∧
    (a.base.trend = .autoAscDesc → (∀ k k', k < k' → k' ≤ f.table.splits.length → rateOfRow f.table.nonevent f.table.event k < rateOfRow f.table.nonevent f.table.event k' + 1 / 1000000) ∨
      (∀ k k', k < k' → k' ≤ f.table.splits.length → rateOfRow f.table.nonevent f.table.event k' < rateOfRow f.table.nonevent f.table.event k + 1 / 1000000)) :=
  C113_trend_cp h.eps h.missing (hr _ _) h.solve

/-- C119: `min_event_rate_diff` chosen for a variable, `solver="mip"`. -/
theorem C119_min_event_rate_diff_mip {reg : ℝ} (h : Processed P fp E cfg ops n a f N) (hr : ∀ k c, RespectsMIP c reg (E.ext n k c))
    {d : ℚ} (hd : a.base.minRateDiff = .num d) {k : ℕ} (hk : k + 1 ≤ f.table.splits.length) :
    d ≤ |rateOfRow f.table.nonevent f.table.event k - rateOfRow f.table.nonevent f.table.event (k + 1)| :=
  C113_min_event_rate_diff_mip h.eps h.missing (hr _ _) h.solve hd hk

/-- C119: `max_pvalue` and `max_pvalue_policy` of a variable, both solvers. -/
theorem C119_pvalue {v : ℚ} (h : Processed P fp E cfg ops n a f N)
    (hr : (∃ reg : ℤ, ∀ k c, RespectsCP c reg (E.ext n k c)) ∨ ∃ reg : ℝ, ∀ k c, RespectsMIP c reg (E.ext n k c))
    (hv : a.base.maxPvalue = some (.num v)) {k k' : ℕ} (hk : k < k') (hk' : k' ≤ f.table.splits.length)
    (hp : a.base.policy = .consecutive → k' = k + 1) :
    E.pv (f.table.event.getD k 0) (f.table.nonevent.getD k 0) (f.table.event.getD k' 0) (f.table.nonevent.getD k' 0) ≤ v := by
  rcases hr with ⟨reg, hr⟩ | ⟨reg, hr⟩
  · exact C113_pvalue_cp h.eps h.missing (hr _ _) h.solve hv hk hk' hp
  · exact C113_pvalue_mip h.eps h.missing (hr _ _) h.solve hv hk hk' hp

/-! ## Which calls raise -/

/-- C119: arguments outside the documented ranges are refused before any call. -/
theorem C119_refused (h : ¬ ValidParamsPS P) : runSketchProcess P fp E cfg ops = .error "ValueError" := by
  unfold runSketchProcess
  obtain ⟨h1, h2⟩ := C119_checks P
  rcases h2 with h2 | h2
  · exact absurd (h1.1 h2) h
  · rw [h2]

/-- C119: an option that `OptimalBinningSketch` does not have (for one of the variables) makes every call of a process raise, in any history: every `add`
raises `ValueError` (also with wrong selection criteria) and no data are ever added. -/
theorem C119_unknown_option (hP : ValidParamsPS P) (hmem : n ∈ cfg.names) (hl : ∀ m ∈ cfg.names, ((sketchParamsOf fp m).map skOptName).Nodup)
    (hbad : ∃ o ∈ sketchParamsOf fp n, ¬ SketchOption o) (c : Chunk (Option α) (Option Bool)) :
    (SkProc.run (sketchVars P fp E) cfg ops).nAdd = 0 ∧
    (((SkProc.run (sketchVars P fp E) cfg ops).add (sketchVars P fp E) cfg c).2 = some "ValueError" ∨
      ((SkProc.run (sketchVars P fp E) cfg ops).add (sketchVars P fp E) cfg c).2 = some "ValueError: selection_criteria") ∧
    ((SkProc.run (sketchVars P fp E) cfg ops).solve (sketchVars P fp E) cfg).2 = some "NotDataAddedError" := by
  have hinit : ∀ (ns : List String), n ∈ ns → (∀ m ∈ ns, m ∈ cfg.names) → ∀ d, ∃ d', initObjs (sketchVars P fp E) ns d = (d', some "ValueError") := by
    intro ns
    induction ns with
    | nil => intro h; simp at h
    | cons m ns ih =>
      intro hm hsub d
      obtain ⟨k1, k2⟩ := sketchVars_new (E := E) (n := m) hP (hl m (hsub m (by simp)))
      unfold initObjs
      by_cases hk : ∀ o ∈ sketchParamsOf fp m, SketchOption o
      · rw [k1 hk]
        simp only
        rcases List.mem_cons.1 hm with rfl | hm
        · obtain ⟨o, ho, hb⟩ := hbad
          exact absurd (hk o ho) hb
        · exact ih hm (fun m' h' => hsub m' (by simp [h'])) _
      · push Not at hk
        rw [k2 hk]
        exact ⟨d, rfl⟩
  have hstart : ∀ p : SkProc (SketchVar α) V, p.started = false → ∃ q e, p.start (sketchVars P fp E) cfg = (q, some e) ∧ q.started = false ∧
      q.nAdd = p.nAdd ∧ (e = "ValueError" ∨ e = "ValueError: selection_criteria") := by
    intro p hp
    unfold SkProc.start
    rw [if_neg (by simp [hp])]
    split
    · exact ⟨_, _, rfl, hp, rfl, Or.inr rfl⟩
    · obtain ⟨d', hd'⟩ := hinit cfg.names hmem (fun _ h => h) p.objs
      rw [hd']
      exact ⟨_, _, rfl, hp, rfl, Or.inl rfl⟩
  have hinv : (SkProc.run (sketchVars P fp E) cfg ops).started = false ∧ (SkProc.run (sketchVars P fp E) cfg ops).nAdd = 0 := by
    unfold SkProc.run
    induction ops using List.reverseRecOn with
    | nil => exact ⟨rfl, rfl⟩
    | append_singleton ops o ih =>
      rw [List.foldl_append]
      simp only [List.foldl_cons, List.foldl_nil]
      generalize List.foldl (fun (p : SkProc (SketchVar α) V) o => (p.step (sketchVars P fp E) cfg o).1) {} ops = p at ih ⊢
      obtain ⟨i1, i2⟩ := ih
      cases o with
      | add c =>
        obtain ⟨q, e, g1, g2, g3, -⟩ := hstart _ i1
        simp only [SkProc.step, SkProc.add]
        rw [g1]
        exact ⟨g2, g3.trans i2⟩
      | merge q =>
        simp only [SkProc.step, SkProc.merge]
        exact ⟨i1, i2⟩
      | solve =>
        simp only [SkProc.step, SkProc.solve]
        rw [if_pos i2]
        exact ⟨i1, i2⟩
  obtain ⟨i1, i2⟩ := hinv
  refine ⟨i2, ?_, ?_⟩
  · obtain ⟨q, e, g1, -, -, g4⟩ := hstart _ i1
    unfold SkProc.add
    rw [g1]
    simpa using g4
  · unfold SkProc.solve
    rw [if_pos i2]

/-- The objects are created for all variables if all options are known. -/
theorem initObjs_known (hP : ValidParamsPS P) (hl : ∀ m ∈ cfg.names, ((sketchParamsOf fp m).map skOptName).Nodup)
    (hk : ∀ m ∈ cfg.names, ∀ o ∈ sketchParamsOf fp m, SketchOption o) :
    ∀ (ns : List String), (∀ m ∈ ns, m ∈ cfg.names) → ∀ d, ∃ d', initObjs (sketchVars P fp E) ns d = (d', none) := by
  intro ns
  induction ns with
  | nil => exact fun _ d => ⟨d, rfl⟩
  | cons m ns ih =>
    intro hsub d
    unfold initObjs
    rw [(sketchVars_new (E := E) (n := m) hP (hl m (hsub m (by simp)))).1 (hk m (hsub m (by simp)))]
    exact ih (fun m' h' => hsub m' (by simp [h'])) _

/-- `OptimalBinningSketch` can be filled: its `K` is positive and `eps` is not 0. -/
def Spec.Fillable (a : SketchArgs) : Prop := 0 < a.K ∧ a.eps.value ≠ 0

theorem addCols_quiet (ns : List String) (y : List (Option Bool)) :
    ∀ (cols : List (String × List (Option α))) (d : PDict (SketchVar α)), (∀ p ∈ cols, p.1 ∈ ns → p.2.length = y.length) →
      (∀ m ∈ ns, ∃ o, d.get m = some o ∧ Fillable o.args) →
      ∃ d', addCols (sketchVars P fp E) ns y cols d = (d', none) ∧ ∀ m ∈ ns, ∃ o, d'.get m = some o ∧ Fillable o.args := by
  intro cols
  induction cols with
  | nil => exact fun d _ h => ⟨d, rfl, h⟩
  | cons q cs ih =>
    intro d hlen hd
    obtain ⟨m, x⟩ := q
    unfold addCols
    by_cases hc : ns.contains m = true
    · rw [if_pos hc]
      have hm : m ∈ ns := by simpa using hc
      obtain ⟨o, ho, hf⟩ := hd m hm
      rw [ho]
      have hl : x.length = y.length := hlen (m, x) (by simp) hm
      have hadd : ∃ o1, (sketchVars P fp E).add o x y = (o1, none) ∧ o1.args = o.args := by
        show ∃ o1, SketchVar.add E.special o x y = (o1, none) ∧ _
        unfold SketchVar.add
        have hbad : ¬ (o.obj.data.nAdd = 0 ∧ o.args.badSketch = true) := by
          rintro ⟨-, h⟩
          have := hf.1
          unfold SketchArgs.badSketch at h
          simp only [decide_eq_true_eq] at h
          omega
        rw [if_neg hbad, if_pos hl]
        have hz : ¬ (o.obj.data.nAdd = 0 ∧ o.args.eps.value = 0) := fun h => hf.2 h.2
        unfold SketchObj.add
        rw [if_neg hz]
        exact ⟨_, rfl, rfl⟩
      obtain ⟨o1, e1, e2⟩ := hadd
      simp only
      rw [e1]
      simp only
      refine ih _ (fun p hp => hlen p (by simp [hp])) fun m' hm' => ?_
      rw [PDict.get_set]
      by_cases he : m' = m
      · rw [if_pos he]; exact ⟨o1, rfl, by rw [e2]; exact hf⟩
      · rw [if_neg he]; exact hd m' hm'
    · rw [if_neg hc]
      exact ih _ (fun p hp => hlen p (by simp [hp])) hd

/-- C119: the values of the options in `binning_fit_params` are never checked: as long as every name is known, `K` is positive, `eps` is not 0, there are no
selection criteria and columns and target have the same length, no history of `add` raises, whatever the other values are. -/
theorem C119_adds (hP : ValidParamsPS P) (hn : cfg.names.Nodup) (hcr : cfg.criteria = none)
    (hl : ∀ m ∈ cfg.names, ((sketchParamsOf fp m).map skOptName).Nodup)
    (hk : ∀ m ∈ cfg.names, ∀ o ∈ sketchParamsOf fp m, SketchOption o)
    (hf : ∀ m ∈ cfg.names, Fillable (optionsSketch P (sketchParamsOf fp m)))
    (chunks : List (Chunk (Option α) (Option Bool))) (hc : ∀ c ∈ chunks, ∀ p ∈ c.cols, p.1 ∈ cfg.names → p.2.length = c.y.length) :
    Quiet (sketchVars P fp E) cfg {} (chunks.map SkProcOp.add) := by
  have key : ∀ (chunks : List (Chunk (Option α) (Option Bool))), (∀ c ∈ chunks, ∀ p ∈ c.cols, p.1 ∈ cfg.names → p.2.length = c.y.length) →
      ∀ p : SkProc (SketchVar α) V, (∃ p', p.start (sketchVars P fp E) cfg = (p', none) ∧ p'.started = true ∧
        ∀ m ∈ cfg.names, ∃ o, p'.objs.get m = some o ∧ Fillable o.args) →
      Quiet (sketchVars P fp E) cfg p (chunks.map SkProcOp.add) := by
    intro chunks
    induction chunks with
    | nil => exact fun _ _ _ => trivial
    | cons c cs ih =>
      intro hc p hp
      obtain ⟨p', g1, g2, g3⟩ := hp
      obtain ⟨d', k1, k2⟩ := addCols_quiet (P := P) (fp := fp) (E := E) cfg.names c.y c.cols p'.objs (hc c (by simp)) g3
      simp only [List.map_cons, Quiet, SkProc.step, SkProc.add]
      rw [g1]
      simp only
      rw [k1]
      refine ⟨rfl, ih (fun c' h' => hc c' (by simp [h'])) _ ⟨{ p' with objs := d', samples := p'.samples + c.rows, nAdd := p'.nAdd + 1 }, ?_, g2, k2⟩⟩
      unfold SkProc.start
      rw [if_pos g2]
  refine key chunks hc {} ?_
  obtain ⟨d, hd⟩ := initObjs_known (E := E) hP hl hk cfg.names (fun _ h => h) ([] : PDict (SketchVar α))
  refine ⟨{ samples := 0, objs := d, started := true }, ?_, rfl, fun m hm => ?_⟩
  · unfold SkProc.start
    rw [if_neg (by simp), if_neg (by rw [hcr]; simp), hd]
  · obtain ⟨o, h1, h2⟩ := (initObjs_ok _ cfg.names hn [] hd).1 m hm
    rw [(sketchVars_new (E := E) (n := m) hP (hl m hm)).1 (hk m hm), Except.ok.injEq] at h1
    subst h1
    exact ⟨_, h2, hf m hm⟩

/-- C119: with correct answers of the solver and readable statistics, `solve` completes after a history without exceptions exactly if, for every variable,
both classes have a value in its columns which is neither missing nor special. -/
theorem C119_completes (hP : ValidParamsPS P) (hn : cfg.names.Nodup) (hcr : cfg.criteria = none)
    (hl : ∀ m ∈ cfg.names, ((sketchParamsOf fp m).map skOptName).Nodup)
    (hm : ∀ m ∈ cfg.names, 0 < (optionsSketch P (sketchParamsOf fp m)).eps.value ∧ 1 < (optionsSketch P (sketchParamsOf fp m)).base.maxPrebins)
    (hsc : ¬ IsSpecialValue E.special none) (hr : ∀ m k c, Respects c (E.ext m k c)) (hmet : ∀ f, ∃ s, E.metrics f = .ok s)
    (hq : Quiet (sketchVars P fp E) cfg {} ops) (hd : DistinctColumns ops) (h0 : (SkProc.run (sketchVars P fp E) cfg ops).nAdd ≠ 0) :
    ((SkProc.run (sketchVars P fp E) cfg ops).solve (sketchVars P fp E) cfg).2 = none ↔
      ∀ m ∈ cfg.names, BothClasses E.special (recordsFor m ops) := by
  have hne : ops ≠ [] := by rintro rfl; exact h0 rfl
  rw [C77_solve_ok hn]
  have hvar : ∀ m ∈ cfg.names, (∃ o o' s, (SkProc.run (sketchVars P fp E) cfg ops).objs.get m = some o ∧ (sketchVars P fp E).solve o = (o', none) ∧
      (sketchVars P fp E).metrics o' = .ok s) ↔ BothClasses E.special (recordsFor m ops) := by
    intro m hmem
    obtain ⟨-, o, g1, g2, g3, g4, g5⟩ := C119_object hP hn hmem (hl m hmem) hne hq hd
    rw [g1, ← sketchOps_received (E.ext m) 0, ← C113_solvable (hull := E.hull) (pv := E.pv) (hm m hmem).1 (hm m hmem).2 hsc
      (ext := E.ext m (solveCalls ops)) (hr _ _ _)]
    have hsv : (sketchVars P fp E).solve o = SketchVar.solve E.special E.hull E.pv (E.ext o.name) o := rfl
    rw [← g5, ← g3, ← g2, ← g4]
    constructor
    · rintro ⟨o1, o', s, e1, e2, -⟩
      rw [Option.some.injEq] at e1
      subst e1
      rw [hsv] at e2
      unfold SketchVar.solve at e2
      rcases hx : o.obj.solve o.args E.special E.hull E.pv (E.ext o.name o.calls) with ⟨e | f, obj⟩
      · rw [hx] at e2; simp at e2
      · exact ⟨f, rfl⟩
    · rintro ⟨f, hf⟩
      obtain ⟨s, hs⟩ := hmet f
      have hres := sketch_solve_result hf
      rcases hx : o.obj.solve o.args E.special E.hull E.pv (E.ext o.name o.calls) with ⟨x, obj⟩
      rw [hx] at hf hres
      simp only at hf hres
      subst hf
      refine ⟨o, { o with obj := obj, calls := o.calls + 1 }, s, rfl, ?_, ?_⟩
      · rw [hsv]; unfold SketchVar.solve; rw [hx]
      · show (match obj.result with | some f => E.metrics f | none => _) = _
        rw [hres]; exact hs
  constructor
  · rintro ⟨-, -, h⟩ m hmem
    exact (hvar m hmem).1 (h m hmem)
  · intro h
    exact ⟨h0, hcr, fun m hmem => (hvar m hmem).2 (h m hmem)⟩

end
end OptBinning
