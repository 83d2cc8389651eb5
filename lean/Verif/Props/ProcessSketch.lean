import Verif.Lemmas.ProcessSketch
import Verif.Model.Stream

/-!
# C76–C79: `BinningProcessSketch`

`K` are the objects of the single variables with their methods, `ops` any history of `add`, `merge` (with any other process) and `solve`;
exceptions are caught by the caller unless `Quiet` says that there were none.
-/
set_option linter.unusedSectionVars false
namespace OptBinning
open Spec
variable {Ω χ υ V μ : Type*} [Field V] [LinearOrder V] {K : VarClass Ω χ υ V μ} {cfg : SkProcCfg V μ}

/-! ## specification: the calls one variable should see -/

/-- The calls on the object of a single variable. -/
inductive Spec.VarOp (Ω χ υ : Type*)
  | add (x : List χ) (y : List υ)
  | merge (o : Ω)
  | solve

/-- One call on the object of a variable. -/
def Spec.varCall (K : VarClass Ω χ υ V μ) (o : Ω) : VarOp Ω χ υ → Ω × Option String
  | .add x y => K.add o x y
  | .merge q => K.merge o q
  | .solve => K.solve o

/-- The object after a call. -/
def Spec.varStep (K : VarClass Ω χ υ V μ) (o : Ω) (c : VarOp Ω χ υ) : Ω := (varCall K o c).1

/-- None of the calls raises. -/
def Spec.VarQuiet (K : VarClass Ω χ υ V μ) : Ω → List (VarOp Ω χ υ) → Prop
  | _, [] => True
  | o, c :: cs => (varCall K o c).2 = none ∧ VarQuiet K (varStep K o c) cs

/-- The calls that concern variable `n`: its column of the chunks that have one, its object in the merged processes, and `solve`. -/
def Spec.callsFor (n : String) : List (SkProcOp Ω χ υ V) → List (VarOp Ω χ υ)
  | [] => []
  | .add c :: ops => (match PDict.get c.cols n with | some x => [.add x c.y] | none => []) ++ callsFor n ops
  | .merge q :: ops => (match q.objs.get n with | some b => [.merge b] | none => []) ++ callsFor n ops
  | .solve :: ops => .solve :: callsFor n ops

/-- No call of the history raises. -/
def Spec.Quiet (K : VarClass Ω χ υ V μ) (cfg : SkProcCfg V μ) : SkProc Ω V → List (SkProcOp Ω χ υ V) → Prop
  | _, [] => True
  | p, o :: ops => (p.step K cfg o).2 = none ∧ Quiet K cfg (p.step K cfg o).1 ops

/-- The column names of every chunk are distinct. -/
def Spec.DistinctColumns (ops : List (SkProcOp Ω χ υ V)) : Prop := ∀ c, SkProcOp.add c ∈ ops → (c.cols.map Prod.fst).Nodup

open Spec

/-! ## C76: routing -/

theorem mem_known {c : Chunk χ υ} {names : List String} {n : String} : n ∈ c.known names ↔ n ∈ names ∧ (PDict.get c.cols n).isSome := by
  unfold Chunk.known
  rw [PDict.get_isSome_iff, List.mem_filter, PDict.keys]
  simp [and_comm]

/-- The objects after one more quiet call on a started process. -/
theorem step_objs (hn : cfg.names.Nodup) {p : SkProc Ω V} (hs : p.started = true) {o : SkProcOp Ω χ υ V} (hq : (p.step K cfg o).2 = none)
    (hd : ∀ c, o = SkProcOp.add c → (c.cols.map Prod.fst).Nodup) {n : String} (hmem : n ∈ cfg.names) {a : Ω} (ha : p.objs.get n = some a) :
    (p.step K cfg o).1.started = true ∧ (p.step K cfg o).1.objs.get n = some ((callsFor n [o]).foldl (varStep K) a) ∧
    VarQuiet K a (callsFor n [o]) := by
  cases o with
  | add c =>
    simp only [SkProc.step, SkProc.add, SkProc.start, hs, if_true] at hq ⊢
    have hr := addCols_ran K cfg.names c (hd c rfl) p.objs
    rcases he : addCols K cfg.names c.y c.cols p.objs with ⟨d, _ | e⟩
    · rw [he] at hr
      simp only at hr ⊢
      refine ⟨trivial, ?_⟩
      obtain ⟨h1, h2⟩ := hr.all
      by_cases hk : n ∈ c.known cfg.names
      · obtain ⟨b, b', g1, g2, g3⟩ := h1 n hk
        rw [ha, Option.some.injEq] at g1
        subst g1
        obtain ⟨x, hx⟩ := Option.isSome_iff_exists.1 (mem_known.1 hk).2
        have hcol : c.col n = x := by rw [Chunk.col, hx]; rfl
        rw [g3]
        simp only [callsFor, hx, List.append_nil, List.foldl_cons, List.foldl_nil, varStep, VarQuiet, varCall]
        rw [← hcol, g2]
        exact ⟨rfl, rfl, trivial⟩
      · have hx : PDict.get c.cols n = none := by
          by_contra hc
          exact hk (mem_known.2 ⟨hmem, Option.isSome_iff_ne_none.2 hc⟩)
        rw [h2 n hk, ha]
        simp [callsFor, hx, VarQuiet]
    · rw [he] at hq; simp at hq
  | merge q =>
    simp only [SkProc.step, SkProc.merge] at hq ⊢
    have hr := mergeObjs_ran K q.objs cfg.names hn p.objs
    rcases he : mergeObjs K q.objs cfg.names p.objs with ⟨d, _ | e⟩
    · rw [he] at hr
      simp only at hr ⊢
      refine ⟨hs, ?_⟩
      obtain ⟨b, b', g1, g2, g3⟩ := hr.all.1 n hmem
      rw [ha, Option.some.injEq] at g1
      subst g1
      unfold mergeVar at g2
      cases hb : q.objs.get n with
      | none => rw [hb] at g2; simp at g2
      | some x =>
        rw [hb] at g2
        simp only at g2
        rw [g3]
        simp [callsFor, hb, varStep, varCall, VarQuiet, g2]
    · rw [he] at hq; simp at hq
  | solve =>
    simp only [SkProc.step, SkProc.solve] at hq ⊢
    by_cases h0 : p.nAdd = 0
    · rw [if_pos h0] at hq; simp at hq
    rw [if_neg h0] at hq ⊢
    have hr := loopObjs_ran (fun _ => K.solve) cfg.names hn p.objs
    rw [← solveObjs_loop] at hr
    rcases he : solveObjs K cfg.names p.objs with ⟨d, _ | e⟩
    · rw [he] at hr hq
      simp only at hr hq ⊢
      rcases hst : statsObjs K d cfg.names p.stats with ⟨st, _ | e⟩
      · rw [hst] at hq
        simp only at hq ⊢
        by_cases hc : cfg.criteria.isSome = true
        · rw [if_pos hc] at hq; simp at hq
        · rw [if_neg hc]
          refine ⟨hs, ?_⟩
          obtain ⟨b, b', g1, g2, g3⟩ := hr.all.1 n hmem
          rw [ha, Option.some.injEq] at g1
          subst g1
          simp only
          rw [g3]
          simp [callsFor, varStep, varCall, VarQuiet, g2]
      · rw [hst] at hq; simp at hq
    · rw [he] at hq; simp at hq

theorem callsFor_cons (n : String) (o : SkProcOp Ω χ υ V) (ops : List (SkProcOp Ω χ υ V)) : callsFor n (o :: ops) = callsFor n [o] ++ callsFor n ops := by
  cases o with
  | add c => simp only [callsFor, List.append_nil]
  | merge q => simp only [callsFor, List.append_nil]
  | solve => rfl

theorem VarQuiet_append {o : Ω} (a b : List (VarOp Ω χ υ)) (h1 : VarQuiet K o a) (h2 : VarQuiet K (a.foldl (varStep K) o) b) : VarQuiet K o (a ++ b) := by
  induction a generalizing o with
  | nil => exact h2
  | cons c cs ih => exact ⟨h1.1, ih h1.2 h2⟩

theorem fold_objs (hn : cfg.names.Nodup) {n : String} (hmem : n ∈ cfg.names) (ops : List (SkProcOp Ω χ υ V)) {p : SkProc Ω V} (hs : p.started = true)
    (hq : Quiet K cfg p ops) (hd : DistinctColumns ops) {a : Ω} (ha : p.objs.get n = some a) :
    (ops.foldl (fun p o => (p.step K cfg o).1) p).objs.get n = some ((callsFor n ops).foldl (varStep K) a) ∧ VarQuiet K a (callsFor n ops) := by
  induction ops generalizing p a with
  | nil => exact ⟨by simpa [callsFor] using ha, trivial⟩
  | cons o ops ih =>
    obtain ⟨h1, h2, h3⟩ := step_objs hn hs hq.1 (fun c hc => hd c (by simp [hc])) hmem ha
    obtain ⟨h4, h5⟩ := ih h1 hq.2 (fun c hc => hd c (List.mem_cons_of_mem _ hc)) h2
    rw [List.foldl_cons, h4, callsFor_cons n o ops, List.foldl_append]
    exact ⟨rfl, VarQuiet_append _ _ h3 h5⟩

/-- C76: in a history without exceptions the object of a variable is in the state it would have if it had been created alone and had
received exactly its own columns, its own merges and the calls of `solve`, in this order, and none of these calls raised. -/
theorem C76_routing (hn : cfg.names.Nodup) {n : String} (hmem : n ∈ cfg.names) {ops : List (SkProcOp Ω χ υ V)} (hne : ops ≠ [])
    (hq : Quiet K cfg {} ops) (hd : DistinctColumns ops) :
    ∃ o, K.new n = .ok o ∧ (SkProc.run K cfg ops).objs.get n = some ((callsFor n ops).foldl (varStep K) o) ∧ VarQuiet K o (callsFor n ops) := by
  cases ops with
  | nil => exact absurd rfl hne
  | cons o ops =>
    cases o with
    | merge q =>
      exfalso
      have h := hq.1
      simp only [SkProc.step, SkProc.merge] at h
      cases hnm : cfg.names with
      | nil => rw [hnm] at hmem; simp at hmem
      | cons m ms => rw [hnm] at h; simp [mergeObjs, PDict.get] at h
    | solve => exact absurd hq.1 (by simp [SkProc.step, SkProc.solve])
    | add c =>
      have h := hq.1
      obtain ⟨p', hp'⟩ : ∃ p', SkProc.start K cfg ({} : SkProc Ω V) = (p', none) := by
        simp only [SkProc.step, SkProc.add] at h
        rcases hst : SkProc.start K cfg ({} : SkProc Ω V) with ⟨p', _ | e⟩
        · exact ⟨p', rfl⟩
        · rw [hst] at h; simp at h
      have hp2 : p'.started = true ∧ ∃ o, K.new n = .ok o ∧ p'.objs.get n = some o := by
        unfold SkProc.start at hp'
        rw [if_neg (by simp)] at hp'
        by_cases hc : (cfg.criteria.all fun c => checkCriteria .binary c) = false
        · rw [if_pos hc] at hp'; simp at hp'
        · rw [if_neg hc] at hp'
          rcases hi : initObjs K cfg.names ([] : PDict Ω) with ⟨d, _ | e⟩
          · rw [hi] at hp'
            simp only [Prod.mk.injEq, and_true] at hp'
            obtain ⟨o, h1, h2⟩ := (initObjs_ok K cfg.names hn [] hi).1 n hmem
            exact ⟨by rw [← hp'], o, h1, by rw [← hp']; exact h2⟩
          · rw [hi] at hp'; simp at hp'
      obtain ⟨hs, o, ho, hget⟩ := hp2
      refine ⟨o, ho, ?_⟩
      have heq : ∀ x : SkProcOp Ω χ υ V, x = .add c → SkProc.step K cfg ({} : SkProc Ω V) x = SkProc.step K cfg p' x := by
        rintro x rfl
        have h2 : SkProc.start K cfg p' = (p', none) := by rw [SkProc.start, if_pos hs]
        simp only [SkProc.step, SkProc.add, hp', h2]
      have hq' : Quiet K cfg p' (.add c :: ops) := by
        refine ⟨?_, ?_⟩
        · rw [← heq _ rfl]; exact hq.1
        · rw [← heq _ rfl]; exact hq.2
      have := fold_objs hn hmem (.add c :: ops) hs hq' hd hget
      rw [List.foldl_cons, ← heq _ rfl] at this
      exact this

/-- C76: columns of a chunk that are not variables have no effect. -/
theorem C76_extra_columns (p : SkProc Ω V) (c : Chunk χ υ) :
    p.add K cfg { c with cols := c.cols.filter fun q => cfg.names.contains q.1 } = p.add K cfg c := by
  have h : ∀ (cols : List (String × List χ)) (d : PDict Ω), addCols K cfg.names c.y (cols.filter fun q => cfg.names.contains q.1) d =
      addCols K cfg.names c.y cols d := by
    intro cols
    induction cols with
    | nil => intro d; rfl
    | cons q cs ih =>
      intro d
      obtain ⟨n, x⟩ := q
      rw [List.filter_cons]
      by_cases hc : cfg.names.contains n = true
      · rw [if_pos hc, addCols, addCols, if_pos hc, if_pos hc]
        cases d.get n with
        | none => rfl
        | some o => simp only [ih]
      · rw [if_neg hc, ih, addCols, if_neg hc]
  unfold SkProc.add
  rcases p.start K cfg with ⟨p', _ | e⟩
  · simp only [h]
  · rfl

/-- Number of rows given to `add`. -/
def Spec.rowsAdded (ops : List (SkProcOp Ω χ υ V)) : ℕ := (ops.map fun | .add c => c.rows | _ => 0).sum

/-- C76: without exceptions, `information` reports the number of rows and of calls of `add`; the rows of merged processes are not counted. -/
theorem C76_counters {ops : List (SkProcOp Ω χ υ V)} (hq : Quiet K cfg {} ops) :
    (SkProc.run K cfg ops).samples = rowsAdded ops ∧
    (SkProc.run K cfg ops).nAdd = ops.countP (fun | .add _ => true | _ => false) ∧
    (SkProc.run K cfg ops).nSolve = ops.countP (fun | .solve => true | _ => false) := by
  have key : ∀ (ops : List (SkProcOp Ω χ υ V)) (p : SkProc Ω V), (p.started = false → p.samples = 0) → Quiet K cfg p ops →
      (ops.foldl (fun p o => (p.step K cfg o).1) p).samples = p.samples + rowsAdded ops ∧
      (ops.foldl (fun p o => (p.step K cfg o).1) p).nAdd = p.nAdd + ops.countP (fun | .add _ => true | _ => false) ∧
      (ops.foldl (fun p o => (p.step K cfg o).1) p).nSolve = p.nSolve + ops.countP (fun | .solve => true | _ => false) := by
    intro ops
    induction ops with
    | nil => intro p _ _; simp [rowsAdded]
    | cons o ops ih =>
      intro p h0 hq
      have hstep : ((p.step K cfg o).1.started = false → (p.step K cfg o).1.samples = 0) ∧
          (p.step K cfg o).1.samples = p.samples + rowsAdded [o] ∧
          (p.step K cfg o).1.nAdd = p.nAdd + [o].countP (fun | .add _ => true | _ => false) ∧
          (p.step K cfg o).1.nSolve = p.nSolve + [o].countP (fun | .solve => true | _ => false) := by
        have hq1 := hq.1
        cases o with
        | add c =>
          simp only [SkProc.step, SkProc.add] at hq1 ⊢
          have hst : ∀ p' , p.start K cfg = (p', none) → p'.samples = p.samples ∧ p'.nAdd = p.nAdd ∧ p'.nSolve = p.nSolve ∧ p'.started = true := by
            intro p' hp'
            unfold SkProc.start at hp'
            by_cases hs : p.started = true
            · rw [if_pos hs] at hp'
              simp only [Prod.mk.injEq, and_true] at hp'
              subst hp'; exact ⟨rfl, rfl, rfl, hs⟩
            · rw [if_neg hs] at hp'
              by_cases hc : (cfg.criteria.all fun c => checkCriteria .binary c) = false
              · rw [if_pos hc] at hp'; simp at hp'
              · rw [if_neg hc] at hp'
                rcases hi : initObjs K cfg.names p.objs with ⟨d, _ | e⟩
                · rw [hi] at hp'
                  simp only [Prod.mk.injEq, and_true] at hp'
                  subst hp'
                  exact ⟨(h0 (by simpa using hs)).symm, rfl, rfl, rfl⟩
                · rw [hi] at hp'; simp at hp'
          rcases hp : p.start K cfg with ⟨p', _ | e⟩
          · obtain ⟨s1, s2, s3, s4⟩ := hst p' hp
            rw [hp] at hq1
            simp only at hq1 ⊢
            rcases ha : addCols K cfg.names c.y c.cols p'.objs with ⟨d, _ | e⟩
            · simp [s1, s2, s3, s4, rowsAdded]
            · rw [ha] at hq1; simp at hq1
          · rw [hp] at hq1; simp at hq1
        | merge q =>
          simp only [SkProc.step, SkProc.merge]
          exact ⟨h0, by simp [rowsAdded], by simp, by simp⟩
        | solve =>
          simp only [SkProc.step, SkProc.solve] at hq1 ⊢
          by_cases hz : p.nAdd = 0
          · rw [if_pos hz] at hq1; simp at hq1
          rw [if_neg hz] at hq1 ⊢
          rcases he : solveObjs K cfg.names p.objs with ⟨d, _ | e⟩
          · rw [he] at hq1
            simp only at hq1 ⊢
            rcases hs2 : statsObjs K d cfg.names p.stats with ⟨st, _ | e⟩
            · rw [hs2] at hq1
              simp only at hq1 ⊢
              by_cases hc : cfg.criteria.isSome = true
              · rw [if_pos hc] at hq1; simp at hq1
              · rw [if_neg hc]
                exact ⟨h0, by simp [rowsAdded], by simp, by simp⟩
            · rw [hs2] at hq1; simp at hq1
          · rw [he] at hq1; simp at hq1
      obtain ⟨g0, g1, g2, g3⟩ := hstep
      obtain ⟨i1, i2, i3⟩ := ih _ g0 hq.2
      rw [List.foldl_cons, i1, i2, i3, g1, g2, g3]
      refine ⟨?_, ?_, ?_⟩
      · simp [rowsAdded]; omega
      · rw [← List.singleton_append (l := ops), List.countP_append]; omega
      · rw [← List.singleton_append (l := ops), List.countP_append]; omega
  have := key ops {} (fun _ => rfl) hq
  simpa [SkProc.run] using this

/-! ## C77: solve -/

theorem statsObjs_none (d : PDict Ω) (ns : List String) (st : PDict (String → V)) :
    (statsObjs K d ns st).2 = none ↔ ∀ n ∈ ns, ∃ o m, d.get n = some o ∧ K.metrics o = .ok m := by
  induction ns generalizing st with
  | nil => simp [statsObjs]
  | cons n ns ih =>
    unfold statsObjs
    cases hg : d.get n with
    | none => simp [hg]
    | some o =>
      cases hm : K.metrics o with
      | error e => simp [hg, hm]
      | ok m =>
        simp only [List.mem_cons, forall_eq_or_imp, hm, ih]
        constructor
        · intro h; exact ⟨⟨o, m, hg, hm⟩, h⟩
        · exact fun h => h.2

/-- C77: `solve` succeeds exactly if data was added, no selection criteria were given, and the object of every variable can be solved and
its table analysed. -/
theorem C77_solve_ok (hn : cfg.names.Nodup) (p : SkProc Ω V) :
    (p.solve K cfg).2 = none ↔ p.nAdd ≠ 0 ∧ cfg.criteria = none ∧
      ∀ n ∈ cfg.names, ∃ o o' m, p.objs.get n = some o ∧ K.solve o = (o', none) ∧ K.metrics o' = .ok m := by
  unfold SkProc.solve
  by_cases h0 : p.nAdd = 0
  · simp [h0]
  rw [if_neg h0]
  have hr := loopObjs_ran (fun _ => K.solve) cfg.names hn p.objs
  rw [← solveObjs_loop] at hr
  rcases he : solveObjs K cfg.names p.objs with ⟨d, _ | e⟩
  · rw [he] at hr
    simp only at hr ⊢
    obtain ⟨h1, -⟩ := hr.all
    have hst := statsObjs_none (K := K) d cfg.names p.stats
    have hiff : (∀ n ∈ cfg.names, ∃ o m, d.get n = some o ∧ K.metrics o = .ok m) ↔
        ∀ n ∈ cfg.names, ∃ o o' m, p.objs.get n = some o ∧ K.solve o = (o', none) ∧ K.metrics o' = .ok m := by
      constructor
      · intro h n hmem
        obtain ⟨o, o', g1, g2, g3⟩ := h1 n hmem
        obtain ⟨o2, m, g4, g5⟩ := h n hmem
        rw [g3, Option.some.injEq] at g4
        subst g4
        exact ⟨o, o', m, g1, g2, g5⟩
      · intro h n hmem
        obtain ⟨o, o', g1, g2, g3⟩ := h1 n hmem
        obtain ⟨o2, o3, m, g4, g5, g6⟩ := h n hmem
        rw [g1, Option.some.injEq] at g4
        subst g4
        rw [g2, Prod.mk.injEq] at g5
        obtain ⟨rfl, -⟩ := g5
        exact ⟨o', m, g3, g6⟩
    rw [← hiff, ← hst]
    rcases hs2 : statsObjs K d cfg.names p.stats with ⟨st, _ | e⟩
    · simp only
      cases hc : cfg.criteria with
      | none => simp [h0]
      | some c => simp
    · simp
  · rw [he] at hr
    simp only [reduceCtorEq, false_iff, not_and]
    intro _ _ hall
    obtain ⟨k, hk0, -, hk2, hk3, hk4⟩ := hr
    have hlt : k < cfg.names.length := by
      rcases Nat.lt_or_ge k cfg.names.length with h | h
      · exact h
      · have : k = cfg.names.length := by omega
        have := hk3.2 this
        simp at this
    have hget := List.getElem?_eq_getElem hlt
    obtain ⟨o, o', m, g1, g2, -⟩ := hall _ (List.getElem_mem hlt)
    rcases hk4 _ hget with ⟨g3, -⟩ | ⟨o2, o3, e', g3, g4, -⟩
    · rw [g1] at g3; simp at g3
    · rw [g1, Option.some.injEq] at g3
      subst g3
      simp only [g2] at g4; simp at g4

/-- C77 finding: with `selection_criteria` no history of calls leads to a solved process, so that `transform`, `summary`, `get_support` and
`information` always raise. -/
theorem C77_criteria_never_solved (hc : cfg.criteria.isSome = true) (ops : List (SkProcOp Ω χ υ V)) : (SkProc.run K cfg ops).solved = false := by
  have key : ∀ (ops : List (SkProcOp Ω χ υ V)) (p : SkProc Ω V), p.solved = false → (ops.foldl (fun p o => (p.step K cfg o).1) p).solved = false := by
    intro ops
    induction ops with
    | nil => intro p h; exact h
    | cons o ops ih =>
      intro p h
      rw [List.foldl_cons]
      refine ih _ ?_
      cases o with
      | add c =>
        simp only [SkProc.step, SkProc.add, SkProc.start]
        split_ifs with h1 h2
        · simp only
          rcases addCols K cfg.names c.y c.cols p.objs with ⟨d, _ | e⟩ <;> exact h
        · exact h
        · rcases initObjs K cfg.names p.objs with ⟨d, _ | e⟩
          · simp only
            rcases addCols K cfg.names c.y c.cols d with ⟨d', _ | e⟩ <;> exact h
          · exact h
      | merge q => exact h
      | solve =>
        simp only [SkProc.step, SkProc.solve]
        split_ifs with h1
        · exact h
        · rcases solveObjs K cfg.names p.objs with ⟨d, _ | e⟩
          · simp only
            rcases statsObjs K d cfg.names p.stats with ⟨st, _ | e⟩
            · exact h
            · exact h
          · exact h
  exact key ops {} rfl

/-- C77: in any history, a solved process selects all variables, in their order. -/
theorem C77_support (ops : List (SkProcOp Ω χ υ V)) (hs : (SkProc.run K cfg ops).solved = true) :
    (SkProc.run K cfg ops).support = List.replicate cfg.names.length true ∧ (SkProc.run K cfg ops).selected cfg = cfg.names := by
  have key : ∀ (ops : List (SkProcOp Ω χ υ V)) (p : SkProc Ω V), (p.solved = true → p.support = List.replicate cfg.names.length true) →
      (ops.foldl (fun p o => (p.step K cfg o).1) p).solved = true →
      (ops.foldl (fun p o => (p.step K cfg o).1) p).support = List.replicate cfg.names.length true := by
    intro ops
    induction ops with
    | nil => intro p h; exact h
    | cons o ops ih =>
      intro p h
      rw [List.foldl_cons]
      refine ih _ ?_
      cases o with
      | add c =>
        simp only [SkProc.step, SkProc.add, SkProc.start]
        split_ifs with h1 h2
        · simp only
          rcases addCols K cfg.names c.y c.cols p.objs with ⟨d, _ | e⟩ <;> exact h
        · exact h
        · rcases initObjs K cfg.names p.objs with ⟨d, _ | e⟩
          · simp only
            rcases addCols K cfg.names c.y c.cols d with ⟨d', _ | e⟩ <;> exact h
          · exact h
      | merge q => exact h
      | solve =>
        simp only [SkProc.step, SkProc.solve]
        by_cases h1 : p.nAdd = 0
        · rw [if_pos h1]; exact h
        · rw [if_neg h1]
          rcases solveObjs K cfg.names p.objs with ⟨d, _ | e⟩
          · simp only
            rcases statsObjs K d cfg.names p.stats with ⟨st, _ | e⟩
            · simp only
              by_cases h2 : cfg.criteria.isSome = true
              · rw [if_pos h2]; exact h
              · rw [if_neg h2]; intro _; rfl
            · exact h
          · exact h
  have hsup := key ops {} (by simp) hs
  refine ⟨hsup, ?_⟩
  unfold SkProc.selected
  unfold SkProc.run
  rw [hsup]
  simp only [List.length_replicate]
  have : ((List.range cfg.names.length).filter fun i => (List.replicate cfg.names.length true).getD i false) = List.range cfg.names.length := by
    rw [List.filter_eq_self]
    intro i hi
    rw [List.mem_range] at hi
    rw [List.getD_eq_getElem _ _ (by simpa using hi)]
    simp
  rw [this]
  refine List.ext_getElem (by simp) fun i h1 h2 => ?_
  simp [List.getElem?_eq_getElem h2]

/-! ## C78: crash points -/

/-- C78: whatever happens, `merge` treats the variables in their order until one raises: those before it are merged, those after it are not. -/
theorem C78_merge_crash (hn : cfg.names.Nodup) (p q : SkProc Ω V) :
    RanUntil (mergeVar K q.objs) cfg.names p.objs.get (p.merge K cfg q).1.objs.get (p.merge K cfg q).2 :=
  mergeObjs_ran K q.objs cfg.names hn p.objs

/-- C78: `add` on a started process treats the known columns in the order of the data frame until one raises. -/
theorem C78_add_crash (p : SkProc Ω V) (hs : p.started = true) (c : Chunk χ υ) (hd : (c.cols.map Prod.fst).Nodup) :
    RanUntil (fun n o => K.add o (c.col n) c.y) (c.known cfg.names) p.objs.get (p.add K cfg c).1.objs.get (p.add K cfg c).2 ∧
    ((p.add K cfg c).2 ≠ none → (p.add K cfg c).1.samples = p.samples ∧ (p.add K cfg c).1.nAdd = p.nAdd) := by
  have h := addCols_ran K cfg.names c hd p.objs
  unfold SkProc.add SkProc.start
  rw [if_pos hs]
  simp only
  rcases he : addCols K cfg.names c.y c.cols p.objs with ⟨d, _ | e⟩ <;> rw [he] at h
  · exact ⟨h, by simp⟩
  · exact ⟨h, by simp⟩

/-- C78: `solve` solves the objects in the order of the variables until one raises; a `solve` that raises leaves the flag, the support and
the number of solves as they were, although the objects before the exception have been solved again. -/
theorem C78_solve_crash (hn : cfg.names.Nodup) (p : SkProc Ω V) (h0 : p.nAdd ≠ 0) :
    (∃ err, RanUntil (fun _ => K.solve) cfg.names p.objs.get (p.solve K cfg).1.objs.get err ∧ (err ≠ none → (p.solve K cfg).2 = err)) ∧
    ((p.solve K cfg).2 ≠ none →
      (p.solve K cfg).1.solved = p.solved ∧ (p.solve K cfg).1.support = p.support ∧ (p.solve K cfg).1.nSolve = p.nSolve) := by
  have hr := loopObjs_ran (fun _ => K.solve) cfg.names hn p.objs
  rw [← solveObjs_loop] at hr
  unfold SkProc.solve
  rw [if_neg h0]
  rcases he : solveObjs K cfg.names p.objs with ⟨d, _ | e⟩ <;> rw [he] at hr
  · simp only at hr ⊢
    rcases statsObjs K d cfg.names p.stats with ⟨st, _ | e⟩
    · simp only
      by_cases h2 : cfg.criteria.isSome = true
      · rw [if_pos h2]; exact ⟨⟨none, hr, by simp⟩, fun _ => ⟨rfl, rfl, rfl⟩⟩
      · rw [if_neg h2]; exact ⟨⟨none, hr, by simp⟩, by simp⟩
    · exact ⟨⟨none, hr, by simp⟩, fun _ => ⟨rfl, rfl, rfl⟩⟩
  · exact ⟨⟨some e, hr, by simp⟩, fun _ => ⟨rfl, rfl, rfl⟩⟩

end OptBinning
